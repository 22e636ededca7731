import Verif.SyntaxLemmas

/-!
# Compiled layouts only use the variables in scope
-/

set_option linter.unusedSectionVars false
set_option linter.unusedSimpArgs false

namespace Verif

variable {R : Type} [DecidableEq R]

theorem SPattern.Means.below {c : BuildCtx R} {env : LexEnv} {p : SPattern} {p' : Pattern R} (h : p.Means c env p') :
    p'.Below env.names.length := by
  cases p with
  | var x =>
    obtain ⟨i, hi, rfl⟩ := h
    intro y hy
    simp only [Pattern.vars, List.mem_singleton] at hy
    subst hy
    exact hi.lt
  | iri i =>
    obtain ⟨r, _, rfl⟩ := h
    intro y hy
    simp [Pattern.vars] at hy
  | literal v ty =>
    obtain ⟨r, _, rfl⟩ := h
    intro y hy
    simp [Pattern.vars] at hy

/-- The variables of the quad are below `k`. -/
def QuadBelow (k : Nat) (q : QuadPat R) : Prop := ∀ x ∈ q.vars, x < k

theorem patsBelow_iff {k : Nat} {pats : List (QuadPat R)} : PatsBelow k pats ↔ ∀ q ∈ pats, QuadBelow k q := by
  simp only [PatsBelow, patsVars, List.mem_flatMap, QuadBelow]
  constructor
  · intro h q hq x hx
    exact h x ⟨q, hq, hx⟩
  · rintro h x ⟨q, hq, hx⟩
    exact h q hq x hx

theorem quadBelow_iff {k : Nat} {q : QuadPat R} :
    QuadBelow k q ↔ q.s.Below k ∧ q.p.Below k ∧ q.o.Below k ∧ ∀ g, q.g = some g → g.Below k := by
  obtain ⟨s, p, o, g⟩ := q
  cases g <;> simp only [QuadBelow, QuadPat.vars, Pattern.Below, List.mem_append, reduceCtorEq, Option.some.injEq, false_implies,
    implies_true, and_true, forall_eq', Option.elim] <;> grind

theorem QuadMeans.below {c : BuildCtx R} {env : LexEnv} {q : Quad SPattern} {q' : QuadPat R} (h : QuadMeans c env q q') :
    QuadBelow env.names.length q' := by
  obtain ⟨h1, h2, h3, h4⟩ := h
  refine quadBelow_iff.2 ⟨h1.below, h2.below, h3.below, fun g hg => ?_⟩
  rw [hg] at h4
  generalize q.g = g₀ at h4
  cases h4 with
  | some h4 => exact h4.below

theorem DatasetMeans.below {c : BuildCtx R} {env : LexEnv} {ds : List (Quad SPattern)} {ds' : List (QuadPat R)}
    (h : DatasetMeans c env ds ds') : PatsBelow env.names.length ds' := by
  rw [patsBelow_iff]
  intro q hq
  obtain ⟨q₀, _, hq₀⟩ := h.2.1 q hq
  exact hq₀.below

theorem HeaderMeans.names_length {c : BuildCtx R} {env env' : LexEnv} {h : LayoutHeader} {input intro : Nat} {ds : List (QuadPat R)}
    (hm : HeaderMeans c env h env' input intro ds) (hn : env.names = []) : env'.names.length = input + intro := by
  rw [hm.opens.names, hn, hm.input, hm.intro]
  simp

theorem ResourceMeans.below {c : BuildCtx R} {env env' : LexEnv} {h : LayoutHeader} {input intro : Nat} {ds : List (QuadPat R)}
    (hm : HeaderMeans c env h env' input intro ds) (hn : env.names = []) {r : Option SPattern} {r' : Pattern R}
    (hr : ResourceMeans c env' h.input r r') : r'.Below (input + intro) := by
  rw [← hm.names_length hn]
  cases r with
  | some p => exact SPattern.Means.below hr
  | none =>
    obtain ⟨h1, rfl⟩ := hr
    intro x hx
    simp only [Pattern.vars, List.mem_singleton] at hx
    subst hx
    rw [hm.opens.names, hn]
    simp only [List.nil_append, List.length_append]
    have := List.length_pos_iff.2 h1
    omega

theorem ListDatasetMeans.below {c : BuildCtx R} {k head rest : Nat} {first : Pattern R} {ds : List (QuadPat R)}
    (h : ListDatasetMeans c head rest first ds) (h1 : head < k) (h2 : rest < k) (h3 : first.Below k) : PatsBelow k ds := by
  rw [patsBelow_iff]
  intro q hq
  rcases (h q).1 hq with rfl | rfl
  · refine quadBelow_iff.2 ⟨?_, ?_, h3, by simp⟩
    · intro x hx
      simp only [Pattern.vars, List.mem_singleton] at hx
      omega
    · intro x hx
      simp [Pattern.vars] at hx
  · refine quadBelow_iff.2 ⟨?_, ?_, ?_, by simp⟩
    · intro x hx
      simp only [Pattern.vars, List.mem_singleton] at hx
      omega
    · intro x hx
      simp [Pattern.vars] at hx
    · intro x hx
      simp only [Pattern.vars, List.mem_singleton] at hx
      omega

theorem SFormat.Means.below {c : BuildCtx R} {reg : R → Option (AbsLayout R)} {default : String} {f : SFormat} {env : LexEnv}
    {f' : ValueFormat R} (h : f.Means c reg default env f') : f'.Below env.names.length := by
  cases f with
  | format l input graph =>
    simp only [SFormat.Means] at h
    obtain ⟨_, h2, h3⟩ := h
    constructor
    · intro p hp
      generalize input.asSlice = l at h2
      generalize hq : f'.input = l' at h2 hp
      clear hq
      induction h2 with
      | nil => simp at hp
      | cons hr _ ih =>
        rcases List.mem_cons.1 hp with rfl | hp
        · exact hr.below
        · exact ih hp
    · intro p hp
      unfold GraphMeans at h3
      rw [hp] at h3
      cases h3 with
      | some h3 =>
        cases h3 with
        | some h3 => exact h3.below
  | layout l =>
    simp only [SFormat.Means] at h
    obtain ⟨_, ⟨i, hi, h2⟩, h3⟩ := h
    constructor
    · intro p hp
      rw [h2, List.mem_singleton] at hp
      subst hp
      intro x hx
      simp only [Pattern.vars, List.mem_singleton] at hx
      subst hx
      exact hi.lt
    · intro p hp
      rw [h3] at hp
      cases hp

theorem PropDatasetMeans.below {c : BuildCtx R} {env : LexEnv} {object : Nat} {ds : List (Quad SPattern)} {property : Option SPattern}
    {ds' : List (QuadPat R)} (h : PropDatasetMeans c env object ds property ds')
    (ho : property.isSome = true → object < env.names.length) : PatsBelow env.names.length ds' := by
  cases property with
  | none => exact DatasetMeans.below h
  | some p =>
    obtain ⟨p', ds₀, h1, h2, h3, -⟩ := h
    have ho := ho rfl
    have h2 := h2.below
    rw [patsBelow_iff] at h2 ⊢
    intro q hq
    rcases (h3 q).1 hq with hq | rfl
    · exact h2 q hq
    · refine quadBelow_iff.2 ⟨?_, h1.below, ?_, by simp⟩
      · intro x hx
        simp only [Pattern.vars, List.mem_singleton] at hx
        omega
      · intro x hx
        simp only [Pattern.vars, List.mem_singleton] at hx
        omega

theorem LexEnv.declare_length (env : LexEnv) (l : List String) : (env.declare l).names.length = env.names.length + l.length := by
  simp [LexEnv.declare]

theorem FieldsMean.closed {c : BuildCtx R} {reg : R → Option (AbsLayout R)} {input : OneOrMany String} {env : LexEnv}
    (fs : List (Value × SField)) {fs' : List (Value × Field R)} (h : FieldsMean c reg input fs env fs') :
    ∀ e ∈ fs', PatsBelow (env.names.length + e.2.intro) e.2.dataset ∧ e.2.value.Below (env.names.length + e.2.intro) := by
  induction fs generalizing fs' with
  | nil =>
    simp only [FieldsMean] at h
    subst h
    simp
  | cons f fs ih =>
    obtain ⟨name, f⟩ := f
    simp only [FieldsMean] at h
    obtain ⟨f', fs'', rfl, hf, hfs⟩ := h
    intro e he
    rcases List.mem_cons.1 he with rfl | he
    · obtain ⟨intro, value, ds, property, required⟩ := f
      simp only [SField.Means] at hf
      obtain ⟨h1, -, h3, h4, h5⟩ := hf
      simp only [h1]
      rw [← LexEnv.declare_length]
      refine ⟨h5.below fun hp => ?_, h3.below⟩
      rw [LexEnv.declare_length]
      have := List.length_pos_iff.2 (h4 hp).2
      omega
    · exact ih hfs e he

theorem VariantsMean.closed {c : BuildCtx R} {reg : R → Option (AbsLayout R)} {env : LexEnv}
    (vs : List (String × SVariant)) {vs' : List (Variant R)} (h : VariantsMean c reg vs env vs') :
    ∀ v ∈ vs', PatsBelow (env.names.length + v.intro) v.dataset ∧ v.value.Below (env.names.length + v.intro) := by
  induction vs generalizing vs' with
  | nil =>
    simp only [VariantsMean] at h
    subst h
    simp
  | cons f fs ih =>
    obtain ⟨name, f⟩ := f
    simp only [VariantsMean] at h
    obtain ⟨f', fs'', rfl, -, hf, hfs⟩ := h
    intro e he
    rcases List.mem_cons.1 he with rfl | he
    · obtain ⟨intro, value, ds⟩ := f
      simp only [SVariant.Means] at hf
      obtain ⟨h1, h3, h5⟩ := hf
      simp only [h1]
      rw [← LexEnv.declare_length]
      exact ⟨h5.below, h3.below⟩
    · exact ih hfs e he

theorem SItem.Means.closed {c : BuildCtx R} {reg : R → Option (AbsLayout R)} {input : OneOrMany String} {env : LexEnv}
    {i : SItem} {i' : ItemLayout R} (h : i.Means c reg input env i') : i'.Closed (env.names.length + i'.intro) := by
  obtain ⟨intro, value, ds, property⟩ := i
  simp only [SItem.Means] at h
  obtain ⟨h1, h3, h4, h5⟩ := h
  rw [h1, ← LexEnv.declare_length]
  refine ⟨h5.below fun hp => ?_, h3.below⟩
  rw [LexEnv.declare_length]
  have := List.length_pos_iff.2 (h4 hp).2
  omega

theorem ItemsMean.closed {c : BuildCtx R} {reg : R → Option (AbsLayout R)} {input : OneOrMany String} {env : LexEnv}
    (is : List SItem) {is' : List (ItemLayout R)} (h : ItemsMean c reg input is env is') :
    ∀ i ∈ is', i.Closed (env.names.length + i.intro) := by
  induction is generalizing is' with
  | nil =>
    simp only [ItemsMean] at h
    subst h
    simp
  | cons f fs ih =>
    simp only [ItemsMean] at h
    obtain ⟨f', fs'', rfl, hf, hfs⟩ := h
    intro e he
    rcases List.mem_cons.1 he with rfl | he
    · exact hf.closed
    · exact ih hfs e he

theorem SNode.Means.closed {c : BuildCtx R} {reg : R → Option (AbsLayout R)} {env : LexEnv}
    {n : SNode} {n' : ItemLayout R} (h : n.Means c reg env n') : n'.Closed (env.names.length + 2 + n'.intro) := by
  cases n with
  | node head rest intro value ds =>
    simp only [SNode.Means] at h
    obtain ⟨h1, h2, h3⟩ := h
    have hl : env.names.length + 2 + n'.intro = (env.declare (head :: rest :: intro.asSlice)).names.length := by
      rw [LexEnv.declare_length, h1]
      simp only [List.length_cons]
      omega
    rw [hl]
    refine ⟨?_, h2.below⟩
    cases ds with
    | some ds => exact DatasetMeans.below h3
    | none =>
      obtain ⟨h4, h5⟩ := h3
      by_cases hlen : (value.inputs "value").length = 1
      · obtain ⟨p, hp⟩ := List.length_eq_one_iff.1 hlen
        obtain ⟨p', hp', hds⟩ := h4 p hp
        refine hds.below ?_ ?_ hp'.below
        · rw [LexEnv.declare_length]
          simp only [List.length_cons]
          omega
        · rw [LexEnv.declare_length]
          simp only [List.length_cons]
          omega
      · rw [h5 hlen]
        rw [patsBelow_iff]
        simp
  | layout r =>
    simp only [SNode.Means] at h
    obtain ⟨h1, h2, h3, h4, h5⟩ := h
    refine ⟨h5.below (by omega) (by omega) ?_, ?_, ?_⟩
    · intro x hx
      simp only [Pattern.vars, List.mem_singleton] at hx
      omega
    · intro p hp
      rw [h3, List.mem_singleton] at hp
      subst hp
      intro x hx
      simp only [Pattern.vars, List.mem_singleton] at hx
      omega
    · intro p hp
      rw [h4] at hp
      cases hp

/-- A meaning of a layout definition is closed. -/
theorem SLayout.Means.closed {c : BuildCtx R} {reg : R → Option (AbsLayout R)} {env : LexEnv} {l : SLayout} {a : AbsLayout R}
    (h : l.Means c reg env a) (hn : env.names = []) : a.Closed := by
  cases l with
  | unit hd k =>
    simp only [SLayout.Means] at h
    obtain ⟨l, env', rfl, hh, -⟩ := h
    have := hh.dataset.below
    rw [hh.names_length hn] at this
    exact this
  | boolean hd r dt =>
    simp only [SLayout.Means] at h
    obtain ⟨l, env', rfl, hh, hr, -⟩ := h
    have := hh.dataset.below
    rw [hh.names_length hn] at this
    exact ⟨this, hr.below hh hn⟩
  | number hd r dt =>
    simp only [SLayout.Means] at h
    obtain ⟨l, env', rfl, hh, hr, -⟩ := h
    have := hh.dataset.below
    rw [hh.names_length hn] at this
    exact ⟨this, hr.below hh hn⟩
  | byteString hd r dt =>
    simp only [SLayout.Means] at h
    obtain ⟨l, env', rfl, hh, hr, -⟩ := h
    have := hh.dataset.below
    rw [hh.names_length hn] at this
    exact ⟨this, hr.below hh hn⟩
  | textString hd p r dt =>
    simp only [SLayout.Means] at h
    obtain ⟨l, env', rfl, hh, hr, -⟩ := h
    have := hh.dataset.below
    rw [hh.names_length hn] at this
    exact ⟨this, hr.below hh hn⟩
  | id hd p r =>
    simp only [SLayout.Means] at h
    obtain ⟨input, intro, ds, r', env', rfl, hh, hr⟩ := h
    have := hh.dataset.below
    rw [hh.names_length hn] at this
    exact ⟨this, hr.below hh hn⟩
  | product hd fields =>
    simp only [SLayout.Means] at h
    obtain ⟨l, env', rfl, hh, hf⟩ := h
    have h1 := hh.dataset.below
    have h2 := FieldsMean.closed _ hf
    rw [hh.names_length hn] at h1 h2
    exact ⟨h1, h2⟩
  | sum hd variants =>
    simp only [SLayout.Means] at h
    obtain ⟨l, env', rfl, hh, hf⟩ := h
    have h1 := hh.dataset.below
    have h2 := VariantsMean.closed _ hf
    rw [hh.names_length hn] at h1 h2
    exact ⟨h1, h2⟩
  | ordered hd node head tail =>
    simp only [SLayout.Means] at h
    obtain ⟨l, env', rfl, hh, hnode, hhd, htl⟩ := h
    have h1 := hh.dataset.below
    have h2 := hnode.closed
    have h3 := hhd.below
    have h4 := htl.below
    rw [hh.names_length hn] at h1 h2 h3 h4
    exact ⟨h1, h3, h4, h2⟩
  | unordered hd item =>
    simp only [SLayout.Means] at h
    obtain ⟨l, env', rfl, hh, hf⟩ := h
    have h1 := hh.dataset.below
    have h2 := hf.closed
    rw [hh.names_length hn] at h1 h2
    exact ⟨h1, h2⟩
  | sized hd items =>
    simp only [SLayout.Means] at h
    obtain ⟨l, env', rfl, hh, hf⟩ := h
    have h1 := hh.dataset.below
    have h2 := ItemsMean.closed _ hf
    rw [hh.names_length hn] at h1 h2
    exact ⟨h1, h2⟩
  | bool b =>
    simp only [SLayout.Means] at h
    subst h
    cases b <;> trivial
  | union hd =>
    simp only [SLayout.Means] at h
  | intersection hd =>
    simp only [SLayout.Means] at h

end Verif
