import Verif.SyntaxClosed
import Verif.RenameSpec

/-!
# The constants of compiled layouts

The resources that occur in a compiled layout, other than as layouts, are those of IRIs and literals.
-/

set_option linter.unusedSectionVars false
set_option linter.unusedSimpArgs false

namespace Verif

variable {R : Type} [DecidableEq R]

/-- The resource of some IRI or literal. -/
def BuildCtx.Denotes (c : BuildCtx R) (r : R) : Prop := (∃ i, r = c.iri i) ∨ ∃ l, r = c.lit l

/-- The constants of the dataset denote IRIs and literals. -/
def PatsDenote (c : BuildCtx R) (ds : List (QuadPat R)) : Prop := ∀ r, PatsHaveConstant ds r → c.Denotes r

/-- The constant of the pattern denotes an IRI or literal. -/
def PatDenotes (c : BuildCtx R) (p : Pattern R) : Prop := ∀ r, p = .res r → c.Denotes r

/-- The constants of the value denote IRIs and literals. -/
def FormatDenotes (c : BuildCtx R) (f : ValueFormat R) : Prop := ∀ r, f.HasConstant r → c.Denotes r

theorem SPattern.Means.denotes {c : BuildCtx R} {env : LexEnv} {p : SPattern} {p' : Pattern R} (h : p.Means c env p') :
    PatDenotes c p' := by
  cases p with
  | var x =>
    obtain ⟨i, hi, rfl⟩ := h
    intro r hr
    cases hr
  | iri i =>
    obtain ⟨r, _, rfl⟩ := h
    intro r' hr
    cases hr
    exact .inl ⟨_, rfl⟩
  | literal v ty =>
    obtain ⟨r, _, rfl⟩ := h
    intro r' hr
    cases hr
    exact .inr ⟨_, rfl⟩

theorem patDenotes_var (c : BuildCtx R) (i : Nat) : PatDenotes c (.var i) := by
  intro r hr
  cases hr

theorem patDenotes_iri (c : BuildCtx R) (i : String) : PatDenotes c (.res (c.iri i)) := by
  intro r hr
  cases hr
  exact .inl ⟨_, rfl⟩

/-- The constants of the quad denote IRIs and literals. -/
def QuadDenotes (c : BuildCtx R) (q : QuadPat R) : Prop :=
  PatDenotes c q.s ∧ PatDenotes c q.p ∧ PatDenotes c q.o ∧ ∀ g, q.g = some g → PatDenotes c g

theorem patsDenote_of {c : BuildCtx R} {ds : List (QuadPat R)} (h : ∀ q ∈ ds, QuadDenotes c q) : PatsDenote c ds := by
  rintro r ⟨q, hq, hr⟩
  obtain ⟨h1, h2, h3, h4⟩ := h q hq
  rcases hr with hr | hr | hr | hr
  · exact h1 r hr
  · exact h2 r hr
  · exact h3 r hr
  · exact h4 _ hr r rfl

theorem QuadMeans.denotes {c : BuildCtx R} {env : LexEnv} {q : Quad SPattern} {q' : QuadPat R} (h : QuadMeans c env q q') :
    QuadDenotes c q' := by
  obtain ⟨h1, h2, h3, h4⟩ := h
  refine ⟨h1.denotes, h2.denotes, h3.denotes, fun g hg => ?_⟩
  rw [hg] at h4
  generalize q.g = g₀ at h4
  cases h4 with
  | some h4 => exact h4.denotes

theorem DatasetMeans.quadDenotes {c : BuildCtx R} {env : LexEnv} {ds : List (Quad SPattern)} {ds' : List (QuadPat R)}
    (h : DatasetMeans c env ds ds') : ∀ q ∈ ds', QuadDenotes c q := by
  intro q hq
  obtain ⟨q₀, _, hq₀⟩ := h.2.1 q hq
  exact hq₀.denotes

theorem DatasetMeans.denotes {c : BuildCtx R} {env : LexEnv} {ds : List (Quad SPattern)} {ds' : List (QuadPat R)}
    (h : DatasetMeans c env ds ds') : PatsDenote c ds' := patsDenote_of h.quadDenotes

theorem ResourceMeans.denotes {c : BuildCtx R} {env : LexEnv} {input : OneOrMany String} {r : Option SPattern} {r' : Pattern R}
    (hr : ResourceMeans c env input r r') : PatDenotes c r' := by
  cases r with
  | some p => exact SPattern.Means.denotes hr
  | none =>
    obtain ⟨-, rfl⟩ := hr
    exact patDenotes_var c 0

theorem DatatypeMeans.denotes {c : BuildCtx R} {env : LexEnv} {d : String} {dt : Option CompactIri} {r : R}
    (h : DatatypeMeans c env d dt r) : c.Denotes r := by
  cases dt with
  | some i =>
    obtain ⟨i', -, rfl⟩ := h
    exact .inl ⟨_, rfl⟩
  | none => exact .inl ⟨_, h⟩

theorem ListDatasetMeans.denotes {c : BuildCtx R} {head rest : Nat} {first : Pattern R} {ds : List (QuadPat R)}
    (h : ListDatasetMeans c head rest first ds) (h3 : PatDenotes c first) : PatsDenote c ds := by
  refine patsDenote_of fun q hq => ?_
  rcases (h q).1 hq with rfl | rfl
  · exact ⟨patDenotes_var c _, patDenotes_iri c _, h3, by simp⟩
  · exact ⟨patDenotes_var c _, patDenotes_iri c _, patDenotes_var c _, by simp⟩

theorem SFormat.Means.denotes {c : BuildCtx R} {reg : R → Option (AbsLayout R)} {default : String} {f : SFormat} {env : LexEnv}
    {f' : ValueFormat R} (h : f.Means c reg default env f') : FormatDenotes c f' := by
  cases f with
  | format l input graph =>
    simp only [SFormat.Means] at h
    obtain ⟨_, h2, h3⟩ := h
    rintro r (hp | hp)
    · generalize input.asSlice = l at h2
      generalize hq : f'.input = l' at h2 hp
      clear hq
      induction h2 with
      | nil => simp at hp
      | cons hr _ ih =>
        rcases List.mem_cons.1 hp with rfl | hp
        · exact hr.denotes r rfl
        · exact ih hp
    · unfold GraphMeans at h3
      rw [hp] at h3
      cases h3 with
      | some h3 =>
        cases h3 with
        | some h3 => exact h3.denotes r rfl
  | layout l =>
    simp only [SFormat.Means] at h
    obtain ⟨_, ⟨i, hi, h2⟩, h3⟩ := h
    rintro r (hp | hp)
    · rw [h2, List.mem_singleton] at hp
      cases hp
    · rw [h3] at hp
      cases hp

theorem PropDatasetMeans.denotes {c : BuildCtx R} {env : LexEnv} {object : Nat} {ds : List (Quad SPattern)} {property : Option SPattern}
    {ds' : List (QuadPat R)} (h : PropDatasetMeans c env object ds property ds') : PatsDenote c ds' := by
  cases property with
  | none => exact DatasetMeans.denotes h
  | some p =>
    obtain ⟨p', ds₀, h1, h2, h3, -⟩ := h
    refine patsDenote_of fun q hq => ?_
    rcases (h3 q).1 hq with hq | rfl
    · exact h2.quadDenotes q hq
    · exact ⟨patDenotes_var c _, h1.denotes, patDenotes_var c _, by simp⟩

theorem FieldsMean.denotes {c : BuildCtx R} {reg : R → Option (AbsLayout R)} {input : OneOrMany String} {env : LexEnv}
    (fs : List (Value × SField)) {fs' : List (Value × Field R)} (h : FieldsMean c reg input fs env fs') :
    ∀ e ∈ fs', PatsDenote c e.2.dataset ∧ FormatDenotes c e.2.value := by
  induction fs generalizing fs' with
  | nil =>
    simp only [FieldsMean] at h
    subst h
    simp
  | cons f fs ih =>
    obtain ⟨name, f⟩ := f
    simp only [FieldsMean] at h
    obtain ⟨f', fs'', rfl, hf, hfs⟩ := h
    intro e he
    rcases List.mem_cons.1 he with rfl | he
    · obtain ⟨intro, value, ds, property, required⟩ := f
      simp only [SField.Means] at hf
      obtain ⟨-, -, h3, -, h5⟩ := hf
      exact ⟨h5.denotes, h3.denotes⟩
    · exact ih hfs e he

theorem VariantsMean.denotes {c : BuildCtx R} {reg : R → Option (AbsLayout R)} {env : LexEnv}
    (vs : List (String × SVariant)) {vs' : List (Variant R)} (h : VariantsMean c reg vs env vs') :
    ∀ v ∈ vs', PatsDenote c v.dataset ∧ FormatDenotes c v.value := by
  induction vs generalizing vs' with
  | nil =>
    simp only [VariantsMean] at h
    subst h
    simp
  | cons f fs ih =>
    obtain ⟨name, f⟩ := f
    simp only [VariantsMean] at h
    obtain ⟨f', fs'', rfl, -, hf, hfs⟩ := h
    intro e he
    rcases List.mem_cons.1 he with rfl | he
    · obtain ⟨intro, value, ds⟩ := f
      simp only [SVariant.Means] at hf
      obtain ⟨-, h3, h5⟩ := hf
      exact ⟨h5.denotes, h3.denotes⟩
    · exact ih hfs e he

theorem SItem.Means.denotes {c : BuildCtx R} {reg : R → Option (AbsLayout R)} {input : OneOrMany String} {env : LexEnv}
    {i : SItem} {i' : ItemLayout R} (h : i.Means c reg input env i') : PatsDenote c i'.dataset ∧ FormatDenotes c i'.value := by
  obtain ⟨intro, value, ds, property⟩ := i
  simp only [SItem.Means] at h
  obtain ⟨-, h3, -, h5⟩ := h
  exact ⟨h5.denotes, h3.denotes⟩

theorem ItemsMean.denotes {c : BuildCtx R} {reg : R → Option (AbsLayout R)} {input : OneOrMany String} {env : LexEnv}
    (is : List SItem) {is' : List (ItemLayout R)} (h : ItemsMean c reg input is env is') :
    ∀ i ∈ is', PatsDenote c i.dataset ∧ FormatDenotes c i.value := by
  induction is generalizing is' with
  | nil =>
    simp only [ItemsMean] at h
    subst h
    simp
  | cons f fs ih =>
    simp only [ItemsMean] at h
    obtain ⟨f', fs'', rfl, hf, hfs⟩ := h
    intro e he
    rcases List.mem_cons.1 he with rfl | he
    · exact hf.denotes
    · exact ih hfs e he

theorem SNode.Means.denotes {c : BuildCtx R} {reg : R → Option (AbsLayout R)} {env : LexEnv}
    {n : SNode} {n' : ItemLayout R} (h : n.Means c reg env n') : PatsDenote c n'.dataset ∧ FormatDenotes c n'.value := by
  cases n with
  | node head rest intro value ds =>
    simp only [SNode.Means] at h
    obtain ⟨-, h2, h3⟩ := h
    refine ⟨?_, h2.denotes⟩
    cases ds with
    | some ds => exact DatasetMeans.denotes h3
    | none =>
      obtain ⟨h4, h5⟩ := h3
      by_cases hlen : (value.inputs "value").length = 1
      · obtain ⟨p, hp⟩ := List.length_eq_one_iff.1 hlen
        obtain ⟨p', hp', hds⟩ := h4 p hp
        exact hds.denotes hp'.denotes
      · rw [h5 hlen]
        exact patsDenote_of (by simp)
  | layout r =>
    simp only [SNode.Means] at h
    obtain ⟨-, -, h3, h4, h5⟩ := h
    refine ⟨h5.denotes (patDenotes_var c _), ?_⟩
    rintro r (hp | hp)
    · rw [h3, List.mem_singleton] at hp
      cases hp
    · rw [h4] at hp
      cases hp

/-- The constants of the layout obtained from the meaning of a definition denote IRIs and literals. -/
theorem SLayout.Means.denotes {c : BuildCtx R} {reg : R → Option (AbsLayout R)} {env : LexEnv} {l : SLayout} {a : AbsLayout R}
    (h : l.Means c reg env a) {debug : Bool} {fuel : Nat} {a' : Layout R} (ha : a.build debug fuel = .ok a') (r : R)
    (hr : a'.HasConstant r) : c.Denotes r := by
  cases l with
  | unit hd k =>
    simp only [SLayout.Means] at h
    obtain ⟨l, env', rfl, hh, -⟩ := h
    cases ha
    exact hh.dataset.denotes r hr
  | boolean hd re dt =>
    simp only [SLayout.Means] at h
    obtain ⟨l, env', rfl, hh, hre, hd⟩ := h
    cases ha
    rcases hr with hr | hr | rfl
    · exact hh.dataset.denotes r hr
    · exact hre.denotes r hr
    · exact hd.denotes
  | number hd re dt =>
    simp only [SLayout.Means] at h
    obtain ⟨l, env', rfl, hh, hre, hd⟩ := h
    cases ha
    rcases hr with hr | hr | rfl
    · exact hh.dataset.denotes r hr
    · exact hre.denotes r hr
    · exact hd.denotes
  | byteString hd re dt =>
    simp only [SLayout.Means] at h
    obtain ⟨l, env', rfl, hh, hre, hd⟩ := h
    cases ha
    rcases hr with hr | hr | rfl
    · exact hh.dataset.denotes r hr
    · exact hre.denotes r hr
    · exact hd.denotes
  | textString hd p re dt =>
    simp only [SLayout.Means] at h
    obtain ⟨l, env', rfl, hh, hre, hd⟩ := h
    simp only [AbsLayout.build] at ha
    match hp : buildPattern debug fuel p, ha with
    | .ok p', ha =>
      cases ha
      rcases hr with hr | hr | rfl
      · exact hh.dataset.denotes r hr
      · exact hre.denotes r hr
      · exact hd.denotes
  | id hd p re =>
    simp only [SLayout.Means] at h
    obtain ⟨input, intro, ds, r', env', rfl, hh, hre⟩ := h
    simp only [AbsLayout.build] at ha
    match hp : buildPattern debug fuel p, ha with
    | .ok p', ha =>
      cases ha
      rcases hr with hr | hr
      · exact hh.dataset.denotes r hr
      · exact hre.denotes r hr
  | product hd fields =>
    simp only [SLayout.Means] at h
    obtain ⟨l, env', rfl, hh, hf⟩ := h
    cases ha
    rcases hr with hr | ⟨e, he, hr | hr⟩
    · exact hh.dataset.denotes r hr
    · exact (FieldsMean.denotes _ hf e he).1 r hr
    · exact (FieldsMean.denotes _ hf e he).2 r hr
  | sum hd variants =>
    simp only [SLayout.Means] at h
    obtain ⟨l, env', rfl, hh, hf⟩ := h
    cases ha
    rcases hr with hr | ⟨e, he, hr | hr⟩
    · exact hh.dataset.denotes r hr
    · exact (VariantsMean.denotes _ hf e he).1 r hr
    · exact (VariantsMean.denotes _ hf e he).2 r hr
  | ordered hd node head tail =>
    simp only [SLayout.Means] at h
    obtain ⟨l, env', rfl, hh, hnode, hhd, htl⟩ := h
    cases ha
    rcases hr with hr | hr | hr | hr | hr
    · exact hh.dataset.denotes r hr
    · exact hhd.denotes r hr
    · exact htl.denotes r hr
    · exact hnode.denotes.1 r hr
    · exact hnode.denotes.2 r hr
  | unordered hd item =>
    simp only [SLayout.Means] at h
    obtain ⟨l, env', rfl, hh, hf⟩ := h
    cases ha
    rcases hr with hr | hr | hr
    · exact hh.dataset.denotes r hr
    · exact hf.denotes.1 r hr
    · exact hf.denotes.2 r hr
  | sized hd items =>
    simp only [SLayout.Means] at h
    obtain ⟨l, env', rfl, hh, hf⟩ := h
    cases ha
    rcases hr with hr | ⟨e, he, hr | hr⟩
    · exact hh.dataset.denotes r hr
    · exact (ItemsMean.denotes _ hf e he).1 r hr
    · exact (ItemsMean.denotes _ hf e he).2 r hr
  | bool b =>
    simp only [SLayout.Means] at h
    subst h
    cases b <;> cases ha <;> cases hr
  | union hd =>
    simp only [SLayout.Means] at h
  | intersection hd =>
    simp only [SLayout.Means] at h

end Verif
