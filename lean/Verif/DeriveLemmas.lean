import Verif.DeriveSpec
import Verif.HydrateOk

/-! # Derived deserialization: what a successful run means -/

set_option linter.unusedSectionVars false
set_option linter.unusedSimpArgs false

namespace Verif

/-- The meaning of a layout, with a stricter meaning of sums: only one variant has a pattern that matches. -/
def StrictMeaning {R : Type} [DecidableEq R] (c : HyCtx R) (M : Option R → R → List R → TypedValue R → Prop)
    (g : Option R) (ref : R) (inputs : List R) (v : TypedValue R) : Layout R → Prop
  | .sum l => ∃ σ i variant w,
      UniqueMatch c.ds (inputs.map some ++ List.replicate l.intro none) (inGraph g l.dataset) σ ∧
      l.variants[i]? = some variant ∧ VariantMeaning c.ds M g σ variant w ∧
      (∀ j x τ, l.variants[j]? = some x → IsMatch c.ds (σ ++ List.replicate x.intro none) (inGraph g x.dataset) τ →
        j = i) ∧
      v = .variant w ref i
  | l => LayoutMeaning c M g ref inputs v l

namespace Derived

variable {R : Type} [DecidableEq R] (c : DsCtx R)

theorem patterns_eq_ok (pats ps : List (QuadPat R)) :
    patterns c pats = .ok ps ↔ pats.all (knowsQuad c) = true ∧ ps = pats := by
  unfold patterns
  split
  · rename_i h
    simp only [h, true_and, Out.ok.injEq]
    exact eq_comm
  · rename_i h; simp only [reduceCtorEq, h, false_and]

theorem requiredMatch_eq_ok (hds : c.ds.Nodup) (σ : Subst R) (pats : List (QuadPat R)) (g : Option R)
    (hd : Declared σ (withDefaultGraph pats g)) (τ : Subst R) :
    requiredMatch c σ pats g = .ok τ ↔
      pats.all (knowsQuad c) = true ∧ UniqueMatch c.ds σ (inGraph g pats) τ := by
  simp only [requiredMatch, Out.bind_eq_ok, patterns_eq_ok, Out.mapErr_eq_ok, inGraph_eq]
  constructor
  · rintro ⟨ps, ⟨h1, rfl⟩, h2⟩
    exact ⟨h1, ((Props.C02_into_required_unique c.ds σ _ hds hd).1 τ).1 h2⟩
  · rintro ⟨h1, h2⟩
    exact ⟨pats, ⟨h1, rfl⟩, ((Props.C02_into_required_unique c.ds σ _ hds hd).1 τ).2 h2⟩

theorem requiredMatch_err (hds : c.ds.Nodup) (σ : Subst R) (pats : List (QuadPat R)) (g : Option R)
    (hd : Declared σ (withDefaultGraph pats g)) (hk : pats.all (knowsQuad c) = true) :
    ((∀ τ, ¬IsMatch c.ds σ (inGraph g pats) τ) → requiredMatch c σ pats g = .err .missingData) ∧
    (∀ τ τ', IsMatch c.ds σ (inGraph g pats) τ → IsMatch c.ds σ (inGraph g pats) τ' → τ ≠ τ' →
      requiredMatch c σ pats g = .err .dataAmbiguity) := by
  simp only [requiredMatch, patterns, hk, if_true, Out.bind_ok, inGraph_eq]
  obtain ⟨-, h1, h2⟩ := Props.C02_into_required_unique c.ds σ _ hds hd
  constructor
  · intro h
    rw [h1.2 h]; rfl
  · intro τ τ' ht ht' hne
    rw [h2.2 ⟨τ, τ', ht, ht', hne⟩]; rfl

theorem uniqueMatch_eq_some (hds : c.ds.Nodup) (σ : Subst R) (pats : List (QuadPat R)) (g : Option R)
    (hd : Declared σ (withDefaultGraph pats g)) (τ : Subst R) :
    uniqueMatch c σ pats g = .ok (some τ) ↔
      pats.all (knowsQuad c) = true ∧ UniqueMatch c.ds σ (inGraph g pats) τ := by
  simp only [uniqueMatch, Out.bind_eq_ok, patterns_eq_ok, Out.mapErr_eq_ok, inGraph_eq]
  constructor
  · rintro ⟨ps, ⟨h1, rfl⟩, h2⟩
    exact ⟨h1, ((Props.C02_into_unique c.ds σ _ hds hd).2.1 τ).1 h2⟩
  · rintro ⟨h1, h2⟩
    exact ⟨pats, ⟨h1, rfl⟩, ((Props.C02_into_unique c.ds σ _ hds hd).2.1 τ).2 h2⟩

theorem uniqueMatch_eq_none (hds : c.ds.Nodup) (σ : Subst R) (pats : List (QuadPat R)) (g : Option R)
    (hd : Declared σ (withDefaultGraph pats g)) :
    uniqueMatch c σ pats g = .ok none ↔
      pats.all (knowsQuad c) = true ∧ ∀ τ, ¬ IsMatch c.ds σ (inGraph g pats) τ := by
  simp only [uniqueMatch, Out.bind_eq_ok, patterns_eq_ok, Out.mapErr_eq_ok, inGraph_eq]
  constructor
  · rintro ⟨ps, ⟨h1, rfl⟩, h2⟩
    exact ⟨h1, (Props.C02_into_unique c.ds σ _ hds hd).1.1 h2⟩
  · rintro ⟨h1, h2⟩
    exact ⟨pats, ⟨h1, rfl⟩, (Props.C02_into_unique c.ds σ _ hds hd).1.2 h2⟩

theorem resource_eq_ok (p : Pattern R) (σ : Subst R) (r : R) :
    resource c p σ = .ok r ↔ knows c p = true ∧ p.Denotes σ.get r := by
  unfold resource
  split
  · rename_i h; simp [h, Out.ofOption_eq_ok, Pattern.value_eq_some]
  · rename_i h; simp [h]

theorem selectInputs_eq_ok (ps : List (Pattern R)) (σ : Subst R) (rs : List R) :
    selectInputs c ps σ = .ok rs ↔
      ps.all (knows c) = true ∧ List.Forall₂ (fun p r => p.Denotes σ.get r) ps rs := by
  unfold selectInputs
  split
  · rename_i h
    simp only [h, true_and, Out.mapM'_eq_ok, Out.ofOption_eq_ok, Pattern.value_eq_some]
  · rename_i h; simp [h]

/-- Everything in the format is known. -/
def knowsFormat (fmt : ValueFormat R) : Bool :=
  fmt.input.all (knows c) &&
    match fmt.graph with
    | some (some p) => knows c p
    | _ => true

theorem selectGraph_eq_ok (g : Option R) (pat : Option (Option (Pattern R))) (σ : Subst R) (g' : Option R) :
    selectGraph c g pat σ = .ok g' ↔
      (match pat with
        | some (some p) => knows c p
        | _ => true) = true ∧ GraphDenotes g pat σ g' := by
  unfold selectGraph GraphDenotes
  rcases pat with _ | _ | p
  · simp [eq_comm]
  · simp [eq_comm]
  · simp only
    cases h : resource c p σ with
    | ok r =>
      have := (resource_eq_ok c p σ r).1 h
      simp only [Out.map, Out.ok.injEq, this.1, true_and]
      constructor
      · rintro rfl; exact ⟨r, this.2, rfl⟩
      · rintro ⟨r', h', rfl⟩
        have := (resource_eq_ok c p σ r').2 ⟨this.1, h'⟩
        rw [h] at this
        injection this with this
        rw [this]
    | err e =>
      simp only [Out.map, reduceCtorEq, false_iff, not_and]
      rintro hk ⟨r, hr, -⟩
      rw [(resource_eq_ok c p σ r).2 ⟨hk, hr⟩] at h; simp at h
    | panic =>
      simp only [Out.map, reduceCtorEq, false_iff, not_and]
      rintro hk ⟨r, hr, -⟩
      rw [(resource_eq_ok c p σ r).2 ⟨hk, hr⟩] at h; simp at h
    | fuel =>
      simp only [Out.map, reduceCtorEq, false_iff, not_and]
      rintro hk ⟨r, hr, -⟩
      rw [(resource_eq_ok c p σ r).2 ⟨hk, hr⟩] at h; simp at h

theorem subValue_eq_ok (rec : Rec R) (g : Option R) (fmt : ValueFormat R) (σ : Subst R) (v : TypedValue R) :
    subValue c rec g fmt σ = .ok v ↔
      knowsFormat c fmt = true ∧ SubMeaning (fun g r i v => rec g r i = .ok v) g fmt σ v := by
  simp only [subValue, Out.bind_eq_ok, selectInputs_eq_ok, selectGraph_eq_ok, knowsFormat, SubMeaning, Bool.and_eq_true]
  constructor
  · rintro ⟨ins, ⟨h1, h2⟩, g', ⟨h3, h4⟩, h5⟩
    exact ⟨⟨h1, h3⟩, ins, g', h2, h4, h5⟩
  · rintro ⟨⟨h1, h3⟩, ins, g', h2, h4, h5⟩
    exact ⟨ins, ⟨h1, h2⟩, g', ⟨h3, h4⟩, h5⟩

/-! ## Literals -/

theorem literalResult_eq_ok {α} (ls : List RdfLit) (o : Option α) (a : α) :
    literalResult ls o = .ok a ↔ o = some a := by
  cases o <;> simp [literalResult]
  split <;> simp

theorem scan_single {α} (parse : String → Option α) (dt : String) (ls : List RdfLit) (h1 : ls.length ≤ 1) (a : α) :
    scan parse dt ls none = .ok (some a) ↔
      ∃ lit, ls = [lit] ∧ literalType lit = dt ∧ parse lit.value = some a := by
  rcases ls with _ | ⟨l, _ | ⟨l', ls⟩⟩
  · simp [scan]
  · simp only [scan]
    split
    · rename_i h
      cases hp : parse l.value with
      | none => simp [hp, h]
      | some b => simp [hp, h]
    · rename_i h; simp [h]
  · simp at h1

theorem scanInt_single (parse : String → Option Int) (dt : String) (ls : List RdfLit) (h1 : ls.length ≤ 1) (a : Int) :
    scanInt parse dt ls none = .ok (some a) ↔
      ∃ lit, ls = [lit] ∧ lit.type = .any dt ∧ parse lit.value = some a := by
  rcases ls with _ | ⟨l, _ | ⟨l', ls⟩⟩
  · simp [scanInt]
  · simp only [scanInt]
    split
    · rename_i h
      cases hp : parse l.value with
      | none => simp [hp, h]
      | some b => simp [hp, h]
    · rename_i h; simp [h]
  · simp at h1

theorem primString_single (ls : List RdfLit) (h1 : ls.length ≤ 1) (s : String) :
    primString ls = .ok s ↔ ∃ lit, ls = [lit] ∧ lit.type = .any xsdString ∧ lit.value = s := by
  rcases ls with _ | ⟨l, _ | ⟨l', ls⟩⟩
  · simp [primString]
  · simp only [primString]
    split
    · rename_i h; simp [h]
    · rename_i h; simp [h]
  · simp at h1

/-- A literal has the expected type: other than the type of language strings. -/
theorem literalType_eq {l : RdfLit} {dt : String} (h : dt ≠ rdfLangString) : literalType l = dt ↔ l.type = .any dt := by
  unfold literalType
  cases ht : l.type with
  | any i => simp
  | langString t => simp [Ne.symm h]

/-- The literals of a datatype, among at most one. -/
theorem filter_single {ls : List RdfLit} (h1 : ls.length ≤ 1) (dt : String) (lit : RdfLit) :
    ls.filter (fun lit => [dt].any fun j => lit.type == .any j) = [lit] ↔ ls = [lit] ∧ lit.type = .any dt := by
  rcases ls with _ | ⟨l, _ | ⟨l', ls⟩⟩
  · simp
  · by_cases h : l.type = .any dt
    · simp [List.filter, h]
      rintro rfl; exact h
    · have h' : (l.type == LitType.any dt) = false := by simpa using h
      simp only [List.any_cons, List.any_nil, Bool.or_false, List.filter, h', reduceCtorEq, List.cons.injEq, and_true, false_iff]
      rintro ⟨rfl, h''⟩; exact h h''
  · simp at h1

theorem data_eq_ok (hds : c.ds.Nodup) (g : Option R) (ref : R) (l : DataLayout R) (inputs : List R)
    (hc : PatsBelow (inputs.length + l.intro) l.dataset)
    (h1 : ∀ r, (c.literalsOf r).length ≤ 1) (hlang : c.datatypeIri l.datatype ≠ rdfLangString) (v : TypedValue R) :
    data c g ref l inputs = .ok v ↔ l.dataset.all (knowsQuad c) = true ∧ knows c l.resource = true ∧
      ∃ σ r lit a, UniqueMatch c.ds (inputs.map some ++ List.replicate l.intro none) (inGraph g l.dataset) σ ∧
        l.resource.Denotes σ.get r ∧ c.literalsOf r = [lit] ∧ lit.type = .any (c.datatypeIri l.datatype) ∧
        c.fromLiteral ref lit.value = some a ∧ v = .literal a := by
  have hd : Declared ((Subst.fromInputs inputs).intro l.intro) (withDefaultGraph l.dataset g) :=
    Hydrate.declared_ext (σ := []) hc (by simp [Subst.fromInputs])
  simp only [data, Out.bind_eq_ok, requiredMatch_eq_ok c hds _ _ _ hd, resource_eq_ok]
  constructor
  · rintro ⟨σ, ⟨hk, hu⟩, r, ⟨hk', hr⟩, o, ho, h⟩
    cases hl : literalResult (c.literalsOf r) o with
    | ok a =>
      rw [literalResult_eq_ok] at hl
      subst hl
      rw [scan_single _ _ _ (h1 r)] at ho
      obtain ⟨lit, e, ht, hp⟩ := ho
      refine ⟨hk, hk', σ, r, lit, a, hu, hr, e, (literalType_eq hlang).1 ht, hp, ?_⟩
      simp [literalResult, Out.map] at h
      exact h.symm
    | err e => rw [hl] at h; simp [Out.map] at h
    | panic => rw [hl] at h; simp [Out.map] at h
    | fuel => rw [hl] at h; simp [Out.map] at h
  · rintro ⟨hk, hk', σ, r, lit, a, hu, hr, e, ht, hp, rfl⟩
    exact ⟨σ, ⟨hk, hu⟩, r, ⟨hk', hr⟩, some a,
      (scan_single _ _ _ (h1 r) a).2 ⟨lit, e, (literalType_eq hlang).2 ht, hp⟩, by simp [literalResult, Out.map]⟩

/-! ## Loops -/

theorem fields_ok (hds : c.ds.Nodup) (rec : Rec R) (g : Option R) (σ : Subst R) (fs : List (Value × Field R))
    (hc : ∀ e ∈ fs, PatsBelow (σ.length + e.2.intro) e.2.dataset) (os : List (Option (TypedValue R)))
    (h : readFields c rec g σ fs = .ok os) (m : List (Value × TypedValue R)) (hm : unwrapFields fs os = .ok m) :
    FieldsMeaning c.ds (fun g r i v => rec g r i = .ok v) g σ fs m := by
  induction fs generalizing os m with
  | nil =>
    simp only [unwrapFields, Out.ok.injEq] at hm
    subst hm
    exact .nil
  | cons e fs ih =>
    obtain ⟨key, field⟩ := e
    have ih := ih (fun e he => hc e (by simp [he]))
    have hd : Declared (σ.intro field.intro) (withDefaultGraph field.dataset g) :=
      Hydrate.declared_ext (σ := σ) (hc (key, field) (by simp)) (by simp)
    simp only [readFields, Out.bind_eq_ok] at h
    obtain ⟨o, ho, h⟩ := h
    cases o with
    | some σ' =>
      simp only [Out.bind_eq_ok] at h
      obtain ⟨v, hv, os', hos, h⟩ := h
      simp only [Out.ok.injEq] at h
      subst h
      simp only [unwrapFields, Out.bind_eq_ok] at hm
      obtain ⟨m', hm', h⟩ := hm
      simp only [Out.ok.injEq] at h
      subst h
      exact .present ((uniqueMatch_eq_some c hds _ _ _ hd _).1 ho).2 ((subValue_eq_ok c _ _ _ _ _).1 hv).2
        (ih _ hos _ hm')
    | none =>
      simp only [Out.bind_eq_ok] at h
      obtain ⟨os', hos, h⟩ := h
      simp only [Out.ok.injEq] at h
      subst h
      simp only [unwrapFields] at hm
      split at hm
      · simp at hm
      · rename_i hr
        exact .absent ((uniqueMatch_eq_none c hds _ _ _ hd).1 ho).2 (by simpa using hr) (ih _ hos _ hm)

theorem variants_ok (hds : c.ds.Nodup) (rec : Rec R) (g : Option R) (ref : R) (σ : Subst R) (vs : List (Variant R))
    (hc : ∀ x ∈ vs, PatsBelow (σ.length + x.intro) x.dataset) (i : Nat) (result : Option (TypedValue R))
    (v : TypedValue R) (h : variants c rec g ref σ i vs result = .ok v) :
    (result = some v ∧
      ∀ x ∈ vs, ∀ τ, ¬ IsMatch c.ds (σ ++ List.replicate x.intro none) (inGraph g x.dataset) τ) ∨
    (result = none ∧ ∃ k variant w, vs[k]? = some variant ∧
      VariantMeaning c.ds (fun g r i v => rec g r i = .ok v) g σ variant w ∧
      (∀ j x τ, vs[j]? = some x → IsMatch c.ds (σ ++ List.replicate x.intro none) (inGraph g x.dataset) τ → j = k) ∧
      v = .variant w ref (i + k)) := by
  induction vs generalizing i result with
  | nil =>
    cases result with
    | none => simp [variants] at h
    | some w => simp only [variants, Out.ok.injEq] at h; subst h; exact .inl ⟨rfl, by simp⟩
  | cons x vs ih =>
    have ih := ih (fun v hv => hc v (by simp [hv]))
    have hd : Declared (σ.intro x.intro) (withDefaultGraph x.dataset g) :=
      Hydrate.declared_ext (σ := σ) (hc x (by simp)) (by simp)
    simp only [variants, Out.bind_eq_ok] at h
    obtain ⟨o, ho, h⟩ := h
    cases o with
    | some σ' =>
      simp only [Out.bind_eq_ok] at h
      obtain ⟨w, hw, h⟩ := h
      split at h
      · simp at h
      · rename_i hr
        have hr : result = none := by simpa using hr
        refine .inr ⟨hr, ?_⟩
        rcases ih _ _ h with ⟨e, hno⟩ | ⟨e, -⟩
        · simp only [Option.some.injEq] at e
          refine ⟨0, x, w, rfl, ⟨σ', ((uniqueMatch_eq_some c hds _ _ _ hd _).1 ho).2,
            ((subValue_eq_ok c _ _ _ _ _).1 hw).2⟩, ?_, e.symm⟩
          intro j y τ hj hm
          cases j with
          | zero => rfl
          | succ j => exact absurd hm (hno y (List.mem_of_getElem? (by simpa using hj)) τ)
        · simp at e
    | none =>
      have hno := ((uniqueMatch_eq_none c hds _ _ _ hd).1 ho).2
      rcases ih _ _ h with ⟨e, hall⟩ | ⟨e, k, variant, w, h1, h2, h3, h4⟩
      · refine .inl ⟨e, ?_⟩
        intro y hy
        rcases List.mem_cons.1 hy with rfl | hy
        · exact hno
        · exact hall y hy
      · refine .inr ⟨e, k + 1, variant, w, h1, h2, ?_, by rw [h4]; congr 1; omega⟩
        intro j y τ hj hm
        cases j with
        | zero =>
          simp only [List.getElem?_cons_zero, Option.some.injEq] at hj
          subst hj
          exact absurd hm (hno τ)
        | succ j => rw [h3 j y τ (by simpa using hj) hm]

theorem nodes_ok (hds : c.ds.Nodup) (rec : Rec R) (g : Option R) (node : ItemLayout R) (σ : Subst R) (tail : R)
    (hc : PatsBelow (σ.length + 2 + node.intro) node.dataset) (n : Nat) (head : R) (vs : List (TypedValue R))
    (h : nodes c rec g node σ tail n head = .ok vs) :
    ChainMeaning c.ds (fun g r i v => rec g r i = .ok v) g node σ tail head vs := by
  induction n generalizing head vs with
  | zero =>
    unfold nodes at h
    split at h
    · rename_i e
      simp only [Out.ok.injEq] at h
      subst h; subst e
      exact .nil
    · simp at h
  | succ n ih =>
    have hd : Declared ((Subst.push σ (some head)).intro (1 + node.intro)) (withDefaultGraph node.dataset g) :=
      Hydrate.declared_ext (σ := σ) hc (by simp [Subst.push]; omega)
    have hreq := requiredMatch_eq_ok c hds _ _ g hd
    rw [Hydrate.intro_push] at hreq
    unfold nodes at h
    split at h
    · rename_i e
      simp only [Out.ok.injEq] at h
      subst h; subst e
      exact .nil
    · rename_i hne
      simp only [Hydrate.intro_push, Out.bind_eq_ok, hreq, subValue_eq_ok, Out.ofOption_eq_ok] at h
      obtain ⟨σ', h1, v, h2, head', h3, vs', h4, h5⟩ := h
      simp only [Out.ok.injEq] at h5
      subst h5
      exact .cons hne h1.2 h2.2 h3 (ih _ _ h4)

theorem sizedItems_ok (hds : c.ds.Nodup) (rec : Rec R) (g : Option R) (σ : Subst R) (items : List (ItemLayout R))
    (hc : ∀ e ∈ items, PatsBelow (σ.length + e.intro) e.dataset) (vs : List (TypedValue R))
    (h : sizedItems c rec g σ items = .ok vs) :
    List.Forall₂ (fun (item : ItemLayout R) v => ∃ σ',
        UniqueMatch c.ds (σ ++ List.replicate item.intro none) (inGraph g item.dataset) σ' ∧
        SubMeaning (fun g r i v => rec g r i = .ok v) g item.value σ' v) items vs := by
  induction items generalizing vs with
  | nil => simp only [sizedItems, Out.ok.injEq] at h; subst h; exact .nil
  | cons item items ih =>
    have ih := ih (fun e he => hc e (by simp [he]))
    have hd : Declared (σ.intro item.intro) (withDefaultGraph item.dataset g) :=
      Hydrate.declared_ext (σ := σ) (hc item (by simp)) (by simp)
    simp only [sizedItems, Out.bind_eq_ok, requiredMatch_eq_ok c hds _ _ _ hd, subValue_eq_ok] at h
    obtain ⟨σ', h1, v, h2, vs', h3, h4⟩ := h
    simp only [Out.ok.injEq] at h4
    subst h4
    exact .cons ⟨σ', h1.2, h2.2⟩ (ih _ h3)

theorem unorderedItems_eq (rec : Rec R) (g : Option R) (fmt : ValueFormat R) (n : Nat) (st : Matching.Stack R)
    (hw : Matching.weight c.ds.length st < n) (hst : ∀ s ∈ st, Matching.State.Inv s) :
    unorderedItems c rec g fmt n st = Out.mapM' (subValue c rec g fmt) (Matching.stackEnum c.ds st) := by
  induction n generalizing st with
  | zero => omega
  | succ n ih =>
    have hs := Matching.next_spec (ε := DsError) c.ds st hst
    simp only [unorderedItems]
    split at hs
    · rename_i e; simp [e, hs, Out.mapM']
    · rename_i σ st' e
      have hw' := Matching.nextFuel_weight c.ds _ _ _ _ e
      simp [e, hs.1, Out.mapM', ih st' (by omega) hs.2]
    · exact hs.elim

/-- The matches in the order of the loop. -/
theorem exists_matchings (hds : c.ds.Nodup) (rec : Rec R) (g : Option R) (item : ItemLayout R) (σ : Subst R)
    (hd : Declared (σ.intro item.intro) (withDefaultGraph item.dataset g)) :
    let st := Matching.new (σ.intro item.intro) (withDefaultGraph item.dataset g)
    ∃ matchings : List (Subst R), matchings.Nodup ∧
      (∀ τ, τ ∈ matchings ↔ IsMatch c.ds (σ ++ List.replicate item.intro none) (inGraph g item.dataset) τ) ∧
      ∀ rec : Rec R, unorderedItems c rec g item.value (Matching.weight c.ds.length st + 1) st =
        Out.mapM' (subValue c rec g item.value) matchings := by
  intro st
  have hmem := Matching.mem_enum c.ds _ _ hd
  have hnd := Matching.nodup_enum c.ds hds _ _ hd
  rw [inGraph_eq]
  refine ⟨_, hnd, hmem, fun rec => ?_⟩
  rw [unorderedItems_eq c rec g item.value _ st (by omega) (Matching.inv_new hd), Matching.stackEnum_new]

/-! ## Layouts -/

theorem isMatch_length {ds : List (Quad R)} {σ₀ σ : Subst R} {pats : List (QuadPat R)} (h : IsMatch ds σ₀ pats σ) :
    σ.length = σ₀.length := h.1

theorem literal_layout_ok (hds : c.ds.Nodup) (x : Xsd) (hx : DsLaws c x) (le) (M) (g : Option R)
    (ref : R) (inputs : List R) (l : Layout R) (d : DataLayout R) (hr : c.reg ref = some l) (hin : inputs.length = 1)
    (hl : l = .boolean d ∨ l = .number d ∨ l = .byteString d ∨ ∃ t, l = .textString t ∧ t.toDataLayout = d)
    (hcl : PatsBelow (1 + d.intro) d.dataset) (v : TypedValue R) (h : data c g ref d inputs = .ok v) :
    StrictMeaning (c.toHy x le) M g ref inputs v l := by
  have hdt : c.irisOf d.datatype = [c.datatypeIri d.datatype] ∧ c.datatypeIri d.datatype ≠ rdfLangString := by
    rcases hl with rfl | rfl | rfl | ⟨t, rfl, rfl⟩ <;> exact hx.datatype ref _ _ hr rfl
  rw [data_eq_ok c hds g ref d inputs (by rw [hin]; exact hcl) hx.single hdt.2] at h
  obtain ⟨-, -, σ, r, lit, a, hu, hden, hlit, ht, hp, rfl⟩ := h
  have hmk : ∀ {α} (parse : String → String → Out (HyError R) α) (a : α),
      parse lit.value (c.datatypeIri d.datatype) = .ok a → DataMeaning (c.toHy x le) parse g d inputs a := by
    intro α parse a hpa
    refine ⟨σ, r, lit, _, hu, hden, ?_, ht, hpa⟩
    change List.filter (fun lit => (c.irisOf d.datatype).any fun j => lit.type == .any j) (c.literalsOf r) = [lit]
    rw [hdt.1]
    exact (filter_single (hx.single r) _ _).2 ⟨hlit, ht⟩
  rcases hl with rfl | rfl | rfl | ⟨t, rfl, rfl⟩
  · obtain ⟨b, hb, rfl⟩ := hx.boolean _ _ _ _ hr hp
    exact ⟨b, hmk _ b (by simp [Hydrate.booleanValue, DsCtx.toHy, hx.boolType _ _ hr, hb]), rfl⟩
  · obtain ⟨q, hq, rfl⟩ := hx.number _ _ _ _ hr hp
    exact ⟨q, hmk _ q (by simp [Hydrate.numberValue, DsCtx.toHy, hx.numType _ _ hr, hq]), rfl⟩
  · rw [hx.bytes _ _ _ hr] at hp; simp at hp
  · have := hx.text _ _ _ _ hr hp
    subst this
    exact ⟨lit.value, hmk _ _ rfl, rfl⟩

theorem layout_ok (hds : c.ds.Nodup) (x : Xsd) (hx : DsLaws c x) (rec : Rec R) (n : Nat) (g : Option R)
    (ref : R) (inputs : List R) (l : Layout R) (hr : c.reg ref = some l) (hl : l.Closed)
    (hi : ∀ k, l.inputCount = some k → inputs.length = k) (v : TypedValue R)
    (h : layout c rec n g ref inputs l = .ok v) :
    StrictMeaning (c.toHy x anyOrder) (fun g r i v => rec g r i = .ok v) g ref inputs v l := by
  have hdec : ∀ (k : Nat) (pats : List (QuadPat R)) m, PatsBelow (m + k) pats → inputs.length = m →
      Declared ((Subst.fromInputs inputs).intro k) (withDefaultGraph pats g) := fun k pats m hp hm =>
    Hydrate.declared_ext (σ := []) hp (by simp [Subst.fromInputs, hm])
  have hlen : ∀ (k m : Nat) pats σ, inputs.length = m →
      UniqueMatch c.ds ((Subst.fromInputs inputs).intro k) pats σ → σ.length = m + k := by
    intro k m pats σ hm hu
    rw [isMatch_length hu.1, Hydrate.length_intro]
    simp [Subst.fromInputs, hm]
  cases l with
  | never => simp [layout] at h
  | always => simp [layout] at h
  | unit l =>
    simp only [layout, Out.bind_eq_ok, requiredMatch_eq_ok c hds _ _ _ (hdec _ _ 1 hl (hi 1 rfl)), Out.ok.injEq] at h
    obtain ⟨σ, ⟨-, hu⟩, rfl⟩ := h
    exact ⟨⟨σ, hu⟩, rfl⟩
  | boolean l => exact literal_layout_ok c hds x hx _ _ g ref inputs _ l hr (hi 1 rfl) (.inl rfl) hl.1 v h
  | number l => exact literal_layout_ok c hds x hx _ _ g ref inputs _ l hr (hi 1 rfl) (.inr (.inl rfl)) hl.1 v h
  | byteString l =>
    exact literal_layout_ok c hds x hx _ _ g ref inputs _ l hr (hi 1 rfl) (.inr (.inr (.inl rfl))) hl.1 v h
  | textString l =>
    exact literal_layout_ok c hds x hx _ _ g ref inputs _ l.toDataLayout hr (hi 1 rfl)
      (.inr (.inr (.inr ⟨l, rfl, rfl⟩))) hl.1 v h
  | id l =>
    simp only [layout, Out.bind_eq_ok, requiredMatch_eq_ok c hds _ _ _ (hdec _ _ 1 hl.1 (hi 1 rfl)), resource_eq_ok] at h
    obtain ⟨σ, ⟨-, hu⟩, r, ⟨-, hden⟩, h⟩ := h
    unfold idValue at h
    split at h <;> simp only [Out.map, reduceCtorEq, Out.ok.injEq] at h
    rename_i iri e
    exact ⟨σ, r, iri, hu, hden, e, h.symm⟩
  | sum l =>
    simp only [layout, Out.bind_eq_ok, requiredMatch_eq_ok c hds _ _ _ (hdec _ _ _ hl.1 (hi _ rfl))] at h
    obtain ⟨σ, ⟨-, hu⟩, h⟩ := h
    have hσ := hlen _ _ _ _ (hi _ rfl) hu
    rcases variants_ok c hds rec g ref σ l.variants (fun y hy => by rw [hσ]; exact (hl.2 y hy).1) 0 none v h with
      ⟨e, -⟩ | ⟨-, k, variant, w, h1, h2, h3, h4⟩
    · simp at e
    · exact ⟨σ, k, variant, w, hu, h1, h2, h3, by rw [h4, Nat.zero_add]⟩
  | product l =>
    simp only [layout, Out.bind_eq_ok, requiredMatch_eq_ok c hds _ _ _ (hdec _ _ _ hl.1 (hi _ rfl)), Out.ok.injEq] at h
    obtain ⟨σ, ⟨-, hu⟩, os, hos, m, hm, rfl⟩ := h
    have hσ := hlen _ _ _ _ (hi _ rfl) hu
    exact ⟨σ, m, hu, fields_ok c hds rec g σ l.fields (fun e he => by rw [hσ]; exact (hl.2 e he).1) os hos m hm, rfl⟩
  | unordered l =>
    simp only [layout, Out.bind_eq_ok, requiredMatch_eq_ok c hds _ _ _ (hdec _ _ _ hl.1 (hi _ rfl)), patterns_eq_ok,
      Out.ok.injEq] at h
    obtain ⟨σ, ⟨-, hu⟩, ps, ⟨-, rfl⟩, vs, hvs, rfl⟩ := h
    have hσ := hlen _ _ _ _ (hi _ rfl) hu
    obtain ⟨ms, h1, h2, h3⟩ := exists_matchings c hds rec g l.item σ
      (Hydrate.declared_ext (σ := σ) hl.2.1 (by rw [hσ]))
    rw [h3, Out.mapM'_eq_ok] at hvs
    refine ⟨σ, ms, vs, vs, hu, h1, h2, ?_, .refl _, ?_, rfl⟩
    · exact hvs.imp fun τ v hv => ((subValue_eq_ok c _ _ _ _ _).1 hv).2
    · exact List.pairwise_of_forall fun _ _ => rfl
  | ordered l =>
    simp only [layout, Out.bind_eq_ok, requiredMatch_eq_ok c hds _ _ _ (hdec _ _ _ hl.1 (hi _ rfl)), resource_eq_ok,
      Out.ok.injEq] at h
    obtain ⟨σ, ⟨-, hu⟩, head, ⟨-, hh⟩, tail, ⟨-, ht⟩, vs, hvs, rfl⟩ := h
    have hσ := hlen _ _ _ _ (hi _ rfl) hu
    exact ⟨σ, head, tail, vs, hu, hh, ht,
      nodes_ok c hds rec g l.node σ tail (by rw [hσ]; exact hl.2.2.2.1) n head vs hvs, rfl⟩
  | sized l =>
    simp only [layout, Out.bind_eq_ok, requiredMatch_eq_ok c hds _ _ _ (hdec _ _ _ hl.1 (hi _ rfl)), Out.ok.injEq] at h
    obtain ⟨σ, ⟨-, hu⟩, vs, hvs, rfl⟩ := h
    have hσ := hlen _ _ _ _ (hi _ rfl) hu
    exact ⟨σ, vs, hu, sizedItems_ok c hds rec g σ l.items (fun e he => by rw [hσ]; exact (hl.2 e he).1) vs hvs, rfl⟩

end Derived

end Verif
