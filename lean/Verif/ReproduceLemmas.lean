import Verif.ReproduceSpec
import Verif.DehydrateClosed
import Verif.RoundTripRun
import Verif.RoundTripHydrate

/-! # Writing back what was read -/

set_option linter.unusedSectionVars false
set_option linter.unusedSimpArgs false

namespace Verif.Reproduce

open Verif.Dehydrate

/-- The resource was created before `k`. -/
def Old (k : Nat) (r : IRes) : Prop := ∀ i, r = .anon i → i < k

theorem Old.mono {k k' : Nat} {r : IRes} (h : Old k r) (hk : k ≤ k') : Old k' r :=
  fun i hi => Nat.lt_of_lt_of_le (h i hi) hk

theorem old_term (k : Nat) (t : Term) : Old k (.term t) := fun _ h => nomatch h

/-- From the state `s`, where resources stand for terms as told by `h`, to the state `s'`, where they do as told by `h'`:
the quads added stand for quads of the dataset, and the terms assigned are those the resources stand for, up to the way
they are written. -/
structure Step (x : Xsd) (P : Term → Prop) (ds : List (Quad Term)) (h : IRes → Term) (s : DeState) (h' : IRes → Term)
    (s' : DeState) : Prop where
  agree : ∀ r, Old s.fresh r → h' r = h r
  fresh : s.fresh ≤ s'.fresh
  quads : ∀ q ∈ s'.out, q ∈ s.out ∨ q.Uses (Old s'.fresh) ∧ q.map h' ∈ ds
  terms : ∀ e ∈ s'.terms, e ∈ s.terms ∨ Old s'.fresh e.1 ∧ P (h' e.1) ∧ WrittenAs x (h' e.1) e.2
  out : ∀ q ∈ s.out, q ∈ s'.out
  kept : ∀ e ∈ s.terms, e ∈ s'.terms

variable {x : Xsd} {P : Term → Prop} {ds : List (Quad Term)}

theorem Step.refl (h : IRes → Term) (s : DeState) : Step x P ds h s h s :=
  ⟨fun _ _ => rfl, Nat.le_refl _, fun _ hq => .inl hq, fun _ he => .inl he, fun _ hq => hq, fun _ he => he⟩

theorem map_congr {q : Quad IRes} {h h' : IRes → Term} {K : IRes → Prop} (hu : q.Uses K) (hk : ∀ r, K r → h' r = h r) :
    q.map h' = q.map h := by
  obtain ⟨s, p, o, g⟩ := q
  obtain ⟨h1, h2, h3, h4⟩ := hu
  simp only [Quad.map, Quad.mk.injEq]
  refine ⟨hk _ h1, hk _ h2, hk _ h3, ?_⟩
  cases g with
  | none => rfl
  | some g => simp only [Option.map_some, Option.some.injEq]; exact hk _ (h4 g rfl)

theorem Uses.mono {q : Quad IRes} {K K' : IRes → Prop} (hu : q.Uses K) (hk : ∀ r, K r → K' r) : q.Uses K' :=
  ⟨hk _ hu.1, hk _ hu.2.1, hk _ hu.2.2.1, fun g hg => hk _ (hu.2.2.2 g hg)⟩

theorem Step.trans {h h1 h2 : IRes → Term} {s s1 s2 : DeState} (a : Step x P ds h s h1 s1) (b : Step x P ds h1 s1 h2 s2) :
    Step x P ds h s h2 s2 := by
  refine ⟨fun r hr => (b.agree r (hr.mono a.fresh)).trans (a.agree r hr), a.fresh.trans b.fresh, fun q hq => ?_,
    fun e he => ?_, fun q hq => b.out q (a.out q hq), fun e he => b.kept e (a.kept e he)⟩
  · rcases b.quads q hq with hq | hq
    · rcases a.quads q hq with hq | ⟨hu, hm⟩
      · exact .inl hq
      · exact .inr ⟨Uses.mono hu fun r hr => hr.mono b.fresh, by rw [map_congr hu b.agree]; exact hm⟩
    · exact .inr hq
  · rcases b.terms e he with he | he
    · rcases a.terms e he with he | ⟨ho, hp, hw⟩
      · exact .inl he
      · refine .inr ⟨ho.mono b.fresh, ?_, ?_⟩
        · rw [b.agree _ ho]; exact hp
        · rw [b.agree _ ho]; exact hw
    · exact .inr he

/-- The resources in scope stand for the terms the variables are bound to. -/
structure Stands (P : Term → Prop) (h : IRes → Term) (ρ : List IRes) (σ : Subst Term) : Prop where
  length : σ.length = ρ.length
  get : ∀ x t, σ.get x = some t → h (ρ.getD x (.input 0)) = t ∧ P t

/-- `h`, with new values for the resources numbered from `n`. -/
def extend (h : IRes → Term) (n : Nat) (f : Nat → Option Term) : IRes → Term
  | .anon i => if n ≤ i then (f (i - n)).getD (h (.anon i)) else h (.anon i)
  | r => h r

theorem extend_old {h : IRes → Term} {n : Nat} {f : Nat → Option Term} {r : IRes} (hr : Old n r) :
    extend h n f r = h r := by
  cases r with
  | anon i =>
    have := hr i rfl
    simp only [extend]
    rw [if_neg (by omega)]
  | _ => rfl

theorem extend_new {h : IRes → Term} {n i : Nat} {f : Nat → Option Term} {t : Term} (hf : f i = some t) :
    extend h n f (.anon (n + i)) = t := by
  simp [extend, hf]

theorem Stands.inst {h : IRes → Term} {ρ : List IRes} {σ : Subst Term} (hs : Stands P h ρ σ)
    (hterm : ∀ t, h (.term t) = t) {p : Pattern Term} {t : Term} (hd : p.Denotes σ.get t) : h (patInst ρ p) = t := by
  cases p with
  | res u => exact (hterm u).trans hd.symm
  | var x => exact (hs.get x t hd).1

theorem Stands.quad {h : IRes → Term} {ρ : List IRes} {σ : Subst Term} (hs : Stands P h ρ σ)
    (hterm : ∀ t, h (.term t) = t) {p : QuadPat Term} {q : Quad Term} (hd : p.Denotes σ.get q) :
    (quadInst ρ p).map h = q := by
  obtain ⟨s, p', o, g⟩ := p
  obtain ⟨s', p'', o', g'⟩ := q
  obtain ⟨h1, h2, h3, h4⟩ := hd
  simp only [Quad.map, quadInst, Quad.mk.injEq]
  refine ⟨hs.inst hterm h1, hs.inst hterm h2, hs.inst hterm h3, ?_⟩
  cases g <;> cases g' <;> simp only at h4
  · rfl
  · simp only [Option.map_some, Option.some.injEq]; exact hs.inst hterm h4

theorem old_inst {k : Nat} {ρ : List IRes} (hρ : ∀ r ∈ ρ, Old k r) (p : Pattern Term) : Old k (patInst ρ p) := by
  cases p with
  | res t => exact old_term k t
  | var x =>
    simp only [patInst, List.getD_eq_getElem?_getD]
    cases hx : ρ[x]? with
    | none => exact fun _ h => nomatch h
    | some r => exact hρ r (List.mem_of_getElem? hx)

theorem old_quad {k : Nat} {ρ : List IRes} (hρ : ∀ r ∈ ρ, Old k r) (p : QuadPat Term) : (quadInst ρ p).Uses (Old k) := by
  refine ⟨old_inst hρ _, old_inst hρ _, old_inst hρ _, fun g hg => ?_⟩
  simp only [quadInst, Option.map_eq_some_iff] at hg
  obtain ⟨p', _, rfl⟩ := hg
  exact old_inst hρ p'

theorem old_scope {ρ : List IRes} {k : Nat} {s : DeState} (hρ : ∀ r ∈ ρ, Old s.fresh r) :
    ∀ r ∈ scope ρ k s, Old (s.fresh + k) r := by
  intro r hr
  rcases List.mem_append.1 hr with hr | hr
  · exact (hρ r hr).mono (Nat.le_add_right _ _)
  · obtain ⟨i, rfl, _, h2⟩ := mem_freshList.1 hr
    rintro j ⟨⟩
    exact h2

theorem scope_getD_old {ρ : List IRes} {k y : Nat} {s : DeState} (hy : y < ρ.length) :
    (scope ρ k s).getD y (.input 0) = ρ.getD y (.input 0) := by
  simp only [scope, List.getD_eq_getElem?_getD, List.getElem?_append_left hy]

theorem scope_getD_new {ρ : List IRes} {k i : Nat} {s : DeState} (hi : i < k) :
    (scope ρ k s).getD (ρ.length + i) (.input 0) = .anon (s.fresh + i) := by
  simp only [scope, List.getD_eq_getElem?_getD]
  rw [List.getElem?_append_right (by omega)]
  simp [freshList, hi]

theorem get_lt {σ : Subst Term} {y : Nat} {t : Term} (h : σ.get y = some t) : y < σ.length := by
  by_contra hy
  simp [Subst.get, List.getElem?_eq_none (Nat.le_of_not_lt hy)] at h

/-- New resources stand for what the match binds the new variables to. -/
theorem intro_stands {h : IRes → Term} {s : DeState} {ρ : List IRes} {k : Nat} {σ : Subst Term}
    (hρ : ∀ r ∈ ρ, Old s.fresh r) (hlen : σ.length = ρ.length + k)
    (hold : ∀ y t, y < ρ.length → σ.get y = some t → h (ρ.getD y (.input 0)) = t)
    (hP : ∀ y t, σ.get y = some t → P t) :
    ∃ h', (∀ r, Old s.fresh r → h' r = h r) ∧ Stands P h' (scope ρ k s) σ := by
  refine ⟨extend h s.fresh fun i => σ.get (ρ.length + i), fun r hr => extend_old hr, ?_, fun y t hy => ⟨?_, hP y t hy⟩⟩
  · rw [length_scope, hlen]
  · have hy' := get_lt hy
    by_cases hlt : y < ρ.length
    · rw [scope_getD_old hlt, extend_old, hold y t hlt hy]
      simp only [List.getD_eq_getElem?_getD, List.getElem?_eq_getElem hlt, Option.getD_some]
      exact hρ _ (List.getElem_mem hlt)
    · obtain ⟨i, rfl⟩ := Nat.exists_eq_add_of_le (Nat.le_of_not_lt hlt)
      rw [scope_getD_new (by omega)]
      exact extend_new hy

/-- Writing the patterns of a match. -/
theorem emit_step {h h' : IRes → Term} {s : DeState} {ρ : List IRes} {k : Nat} {σ : Subst Term} {pats : List (QuadPat Term)}
    (hρ : ∀ r ∈ ρ, Old s.fresh r) (hterm : ∀ t, h (.term t) = t) (hag : ∀ r, Old s.fresh r → h' r = h r)
    (hst : Stands P h' (scope ρ k s) σ) (hsat : ∀ p ∈ pats, ∃ q ∈ ds, p.Denotes σ.get q) :
    Step x P ds h s h' (emit (scope ρ k s) pats (alloc k s)) := by
  refine ⟨hag, Nat.le_add_right _ _, fun q hq => ?_, fun e he => .inl he, fun q hq => mem_emit.2 (.inl hq), fun e he => he⟩
  rcases mem_emit.1 hq with hq | ⟨p, hp, rfl⟩
  · exact .inl hq
  · obtain ⟨q, hq, hd⟩ := hsat p hp
    refine .inr ⟨old_quad (old_scope hρ) p, ?_⟩
    rw [hst.quad (fun t => (hag _ (old_term _ t)).trans (hterm t)) hd]
    exact hq

/-- What the dataset, the layouts and the inputs consist of. -/
structure Domain (P : Term → Prop) (reg : Registry Term) (ds : List (Quad Term)) : Prop where
  quads : ∀ q ∈ ds, ∀ t, q.Has t → P t
  constants : ∀ t, reg.HasConstant t → P t

theorem denotes_var {f : Nat → Option Term} {p : QuadPat Term} {q : Quad Term} (hd : p.Denotes f q) {y : Nat}
    (hy : y ∈ p.vars) : ∃ t, f y = some t ∧ q.Has t := by
  obtain ⟨s, p', o, g⟩ := p
  obtain ⟨s', p'', o', g'⟩ := q
  obtain ⟨h1, h2, h3, h4⟩ := hd
  have aux : ∀ {p : Pattern Term} {t : Term}, p.Denotes f t → y ∈ p.vars → f y = some t := by
    intro p t hd hy
    cases p with
    | res _ => simp [Pattern.vars] at hy
    | var z =>
      simp only [Pattern.vars, List.mem_singleton] at hy
      subst hy
      exact hd
  simp only [QuadPat.vars, List.mem_append] at hy
  rcases hy with hy | hy | hy | hy
  · exact ⟨_, aux h1 hy, .inl rfl⟩
  · exact ⟨_, aux h2 hy, .inr (.inl rfl)⟩
  · exact ⟨_, aux h3 hy, .inr (.inr (.inl rfl))⟩
  · cases g <;> cases g' <;> simp only at h4
    · simp at hy
    · exact ⟨_, aux h4 hy, .inr (.inr (.inr rfl))⟩

theorem match_var {σ₀ σ : Subst Term} {pats : List (QuadPat Term)} (hm : IsMatch ds σ₀ pats σ) {y : Nat}
    (hy : y ∈ patsVars pats) : ∃ t, σ.get y = some t ∧ ∃ q ∈ ds, q.Has t := by
  simp only [patsVars, List.mem_flatMap] at hy
  obtain ⟨p, hp, hy⟩ := hy
  obtain ⟨q, hq, hd⟩ := hm.sat p hp
  obtain ⟨t, ht, hh⟩ := denotes_var hd hy
  exact ⟨t, ht, q, hq, hh⟩

theorem match_P {reg : Registry Term} (hP : Domain P reg ds) {σ₀ σ : Subst Term} {pats : List (QuadPat Term)}
    (hm : IsMatch ds σ₀ pats σ) (h0 : ∀ y t, σ₀.get y = some t → P t) : ∀ y t, σ.get y = some t → P t := by
  intro y t hy
  rcases hm.minimal y t hy with h | h
  · exact h0 y t h
  · obtain ⟨t', ht', q, hq, hh⟩ := match_var hm h
    rw [hy] at ht'
    obtain rfl := Option.some.inj ht'
    exact hP.quads q hq t hh

theorem get_append_none {σ : Subst Term} {k y : Nat} {t : Term}
    (h : Subst.get (σ ++ List.replicate k none) y = some t) : σ.get y = some t := by
  unfold Subst.get at h ⊢
  by_cases hy : y < σ.length
  · rwa [List.getElem?_append_left hy] at h
  · rw [List.getElem?_append_right (by omega)] at h
    simp only [List.getElem?_replicate] at h
    split at h <;> simp_all

theorem get_append_left {σ τ : Subst Term} {y : Nat} (hy : y < σ.length) : Subst.get (σ ++ τ) y = σ.get y := by
  unfold Subst.get
  rw [List.getElem?_append_left hy]

/-- Every variable is bound. -/
def Total (σ : Subst Term) : Prop := ∀ y, y < σ.length → ∃ t, σ.get y = some t

/-- Entering a part of a layout, when every variable in scope is bound. -/
theorem enter {reg : Registry Term} (hP : Domain P reg ds) {h : IRes → Term} {s : DeState} {ρ : List IRes} {k : Nat}
    {σ σ' : Subst Term} {pats : List (QuadPat Term)} (hterm : ∀ t, h (.term t) = t) (hρ : ∀ r ∈ ρ, Old s.fresh r)
    (hst : Stands P h ρ σ) (htot : Total σ) (hm : IsMatch ds (σ ++ List.replicate k none) pats σ') :
    ∃ h', Step x P ds h s h' (emit (scope ρ k s) pats (alloc k s)) ∧ Stands P h' (scope ρ k s) σ' := by
  have hlen : σ'.length = ρ.length + k := by rw [hm.length_eq]; simp [hst.length]
  obtain ⟨h', hag, hst'⟩ := intro_stands (P := P) (h := h) (σ := σ') hρ hlen (by
    intro y t hy hget
    have hy' : y < σ.length := by rw [hst.length]; exact hy
    obtain ⟨u, hu⟩ := htot y hy'
    have := hm.keeps y u (by rw [get_append_left hy']; exact hu)
    rw [hget] at this
    obtain rfl := Option.some.inj this
    exact (hst.get y t hu).1) (match_P hP hm fun y t hy => (hst.get y t (get_append_none hy)).2)
  exact ⟨h', emit_step hρ hterm hag hst' hm.sat, hst'⟩

/-- If the patterns of a layout bind the variables it introduces, every variable in scope is bound. -/
theorem total_of_binds {σ σ' : Subst Term} {k : Nat} {pats : List (QuadPat Term)} (htot : Total σ)
    (hm : IsMatch ds (σ ++ List.replicate k none) pats σ')
    (hb : ∀ y, σ.length ≤ y → y < σ.length + k → y ∈ patsVars pats) : Total σ' := by
  intro y hy
  rw [hm.length_eq, List.length_append, List.length_replicate] at hy
  by_cases hlt : y < σ.length
  · obtain ⟨u, hu⟩ := htot y hlt
    exact ⟨u, hm.keeps y u (by rw [get_append_left hlt]; exact hu)⟩
  · obtain ⟨t, ht, _⟩ := match_var hm (hb y (by omega) hy)
    exact ⟨t, ht⟩

theorem get_inputs {ins : List Term} {y : Nat} {t : Term} :
    Subst.get (ins.map some) y = some t ↔ ins[y]? = some t := by
  unfold Subst.get
  rw [List.getElem?_map]
  cases ins[y]? <;> simp

theorem total_inputs (ins : List Term) : Total (ins.map some) := by
  intro y hy
  rw [List.length_map] at hy
  exact ⟨ins[y], get_inputs.2 (List.getElem?_eq_getElem hy)⟩

theorem stands_inputs {h : IRes → Term} {dins : List IRes} {ins : List Term} (hmap : dins.map h = ins)
    (hP : ∀ t ∈ ins, P t) : Stands P h dins (ins.map some) := by
  subst hmap
  refine ⟨by simp, fun y t hy => ?_⟩
  rw [get_inputs] at hy
  refine ⟨?_, hP t (List.mem_of_getElem? hy)⟩
  rw [List.getElem?_map, Option.map_eq_some_iff] at hy
  obtain ⟨r, hr, rfl⟩ := hy
  rw [List.getD_eq_getElem?_getD, hr]
  rfl


theorem stays (s : DeState) {o : Out DeError Unit} (h : ∀ a, o ≠ .ok a) :
    (∀ a, (o, s).1 ≠ .ok a) ∧ ∃ k, (o, s).2 = alloc k s := ⟨h, 0, rfl⟩

/-- A layout that declines a value fails, and only creates resources. -/
theorem declines {c : DeCtx} (hcl : c.reg.Closed) {ref : Term} {v : Value} (hd : Declines c.reg ref v) (n : Nat)
    (g : Option IRes) (ins : List IRes) (s : DeState) :
    (∀ a, (dehydrateWith c n v g ref ins s).1 ≠ .ok a) ∧
      ∃ k, (dehydrateWith c n v g ref ins s).2 = alloc k s := by
  induction hd generalizing n g ins s with
  | @kind ref l v hl hr =>
    cases n with
    | zero => exact stays s (fun _ h => nomatch h)
    | succ n =>
    unfold dehydrateWith
    rw [hl]
    simp only
    split
    · exact stays s (fun _ h => nomatch h)
    · cases l with
      | never => exact stays s (fun _ h => nomatch h)
      | always => simp [Layout.rejects] at hr
      | sum l => simp [Layout.rejects] at hr
      | unit l =>
        simp only [Layout.rejects, ne_eq, decide_not, Bool.not_eq_true', decide_eq_false_iff_not] at hr
        simp only [layout, if_neg hr]
        exact stays s (fun _ h => nomatch h)
      | product l =>
        simp only [layout]
        split
        · rename_i m
          cases m with
          | nil => simp [Layout.rejects] at hr
          | cons e m =>
            obtain ⟨key, w⟩ := e
            simp only [Layout.rejects, Bool.and_eq_true, List.isEmpty_iff, decide_eq_true_eq] at hr
            have hlk : Dehydrate.lookup key l.fields = none := by
              cases hlk : Dehydrate.lookup key l.fields with
              | none => rfl
              | some f => exact absurd rfl (hr.2 _ (Dehydrate.mem_of_lookup hlk))
            rw [hr.1]
            rw [Dehydrate.intro_emit (by simp [PatsBelow, patsVars])]
            unfold Dehydrate.entries
            rw [hlk]
            exact ⟨(fun _ h => nomatch h), l.intro, rfl⟩
        · exact stays s (fun _ h => nomatch h)
      | _ =>
        simp only [layout]
        split
        · simp [Layout.rejects] at hr
        · exact stays s (fun _ h => nomatch h)
  | @sum ref l v hl hds hall ih =>
    cases n with
    | zero => exact stays s (fun _ h => nomatch h)
    | succ n =>
    unfold dehydrateWith
    rw [hl]
    simp only
    split
    · exact stays s (fun _ h => nomatch h)
    · rename_i hin
      have hlen : ins.length = l.input := by
        simp only [Layout.inputCount, Option.any_some, ne_eq, decide_not, Bool.not_eq_true', decide_eq_false_iff_not,
          Decidable.not_not] at hin
        exact hin.symm
      simp only [layout, hds]
      rw [Dehydrate.intro_emit (by simp [PatsBelow, patsVars])]
      have key : ∀ (vs : List (Variant Term)), (∀ y ∈ vs, y ∈ l.variants) → ∀ (k : Nat),
          (∀ a, (variants (dehydrateWith c n) g (.child (.root ins) (freshList s.fresh l.intro)) v vs none (alloc k s)).1 ≠
            .ok a) ∧
          ∃ k', (variants (dehydrateWith c n) g (.child (.root ins) (freshList s.fresh l.intro)) v vs none (alloc k s)).2 =
            alloc k' s := by
        intro vs
        induction vs with
        | nil => exact fun _ k => ⟨(fun _ h => nomatch h), k, rfl⟩
        | cons y vs ihv =>
          intro hin k
          have hy := hin y (by simp)
          obtain ⟨_, h2⟩ := hcl _ _ hl
          have hlen' : (Env.child (.root ins) (freshList s.fresh l.intro)).flat.length = l.input + l.intro := by
            rw [length_flat_child]; exact congrArg (· + _) hlen
          rw [variants_cons (by rw [hlen']; exact (h2 y hy).1) (by rw [hlen']; exact (h2 y hy).2)]
          have hcall : ∀ (ρ : List IRes) (s : DeState),
              (∀ a, (call (dehydrateWith c n) g y.value ρ v s).1 ≠ .ok a) ∧
              ∃ k, (call (dehydrateWith c n) g y.value ρ v s).2 = alloc k s := by
            intro ρ s
            exact ih y hy n _ _ _
          rcases hx : call (dehydrateWith c n) g y.value
            (scope (Env.child (.root ins) (freshList s.fresh l.intro)).flat y.intro (alloc k s)) v
            (alloc y.intro (alloc k s)) with ⟨a | e | _ | _, s1⟩
          · exact absurd (by rw [hx]) ((hcall _ _).1 a)
          · obtain ⟨k1, hk1⟩ := (hcall (scope (Env.child (.root ins) (freshList s.fresh l.intro)).flat y.intro (alloc k s))
              (alloc y.intro (alloc k s))).2
            rw [hx] at hk1
            have : s1 = alloc (k + y.intro + k1) s := by
              rw [show s1 = _ from hk1]; simp [alloc, Nat.add_assoc]
            simp only [this]
            exact ihv (fun z hz => hin z (by simp [hz])) _
          all_goals
            obtain ⟨k1, hk1⟩ := (hcall (scope (Env.child (.root ins) (freshList s.fresh l.intro)).flat y.intro (alloc k s))
              (alloc y.intro (alloc k s))).2
            rw [hx] at hk1
            have : s1 = alloc (k + y.intro + k1) s := by
              rw [show s1 = _ from hk1]; simp [alloc, Nat.add_assoc]
            exact ⟨(fun _ h => nomatch h), _, this⟩
      have h0 : emit (scope ins l.intro s) ([] : List (QuadPat Term)) (alloc l.intro s) = alloc l.intro s := rfl
      exact key l.variants (fun _ h => h) l.intro

end Verif.Reproduce
