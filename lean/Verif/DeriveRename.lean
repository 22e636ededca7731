import Verif.RenameHydrate
import Verif.Derive

/-!
# Derived deserialization of a renamed dataset (helper lemmas for C98)
-/

set_option linter.unusedSectionVars false
set_option linter.unusedSimpArgs false

namespace Verif.Derived

open Verif.Matching
open Verif.Hydrate (Fixed FixedPat FixedFormat value_rename value_within withDefaultGraph_rename within_default
  Inv inv_inputs)

variable {R : Type} [DecidableEq R] {f : R → R} {P : R → Prop} {c c' : DsCtx R}

/-- `c'` is `c` with the resources `P` renamed. -/
structure Renamed (f : R → R) (P : R → Prop) (c c' : DsCtx R) : Prop where
  reg : c'.reg = c.reg
  prim : c'.prim = c.prim
  known : c'.known = c.known
  datatypeIri : c'.datatypeIri = c.datatypeIri
  fromLiteral : c'.fromLiteral = c.fromLiteral
  parseInt : c'.parseInt = c.parseInt
  iris : ∀ r, P r → c'.irisOf (f r) = c.irisOf r
  blankIds : ∀ r, P r → c'.blankIdsOf (f r) = c.blankIdsOf r
  literals : ∀ r, P r → c'.literalsOf (f r) = c.literalsOf r
  injective : ∀ r r', P r → P r' → f r = f r' → r = r'
  constants : ∀ r, c.reg.HasConstant r → P r ∧ f r = r
  quads : ∀ q ∈ c.ds, ∀ r, q.Has r → P r
  dataset : Enriched f (fun _ => False) c.ds c'.ds

theorem useless_none {ds : List (Quad R)} (pats : List (QuadPat R)) (σ : Subst R) : Useless f (fun _ => False) ds σ pats := by
  induction pats generalizing σ with
  | nil => trivial
  | cons q pats ih => exact ⟨fun _ h => h.elim, fun _ _ _ _ => ih _⟩

theorem bind_map {ε α α' β} {g : α → α'} {x : Out ε α} {k : α → Out ε β} {k' : α' → Out ε β}
    (h : ∀ a, x = .ok a → k' (g a) = k a) : (x.map g).bind k' = x.bind k := by
  cases x with
  | ok a => exact h a rfl
  | err _ => rfl
  | panic => rfl
  | fuel => rfl

theorem bind_congr' {ε α β} {x : Out ε α} {k k' : α → Out ε β} (h : ∀ a, x = .ok a → k' a = k a) : x.bind k' = x.bind k := by
  cases x with
  | ok a => exact h a rfl
  | err _ => rfl
  | panic => rfl
  | fuel => rfl

variable (E : Renamed f P c c')
include E

theorem patterns_rename (pats : List (QuadPat R)) : patterns c' pats = patterns c pats := by
  have : knowsQuad c' = knowsQuad c := by
    funext q
    have h : knows c' = knows c := by
      funext p
      cases p <;> simp [knows, E.known]
    simp only [knowsQuad, h]
  simp only [patterns, this]

theorem knows_rename (p : Pattern R) : knows c' p = knows c p := by
  cases p <;> simp [knows, E.known]

theorem unique_rename {σ : Subst R} (hσ : σ.Within P) {pats : List (QuadPat R)} (hfix : Fixed f P pats) {g : Option R}
    (hg : ∀ r, g = some r → P r) :
    uniqueMatch c' (σ.rename f) pats (g.map f) = (uniqueMatch c σ pats g).map (Option.map (Subst.rename f)) := by
  unfold uniqueMatch
  rw [patterns_rename E]
  unfold patterns
  split
  · simp only [Out.bind_ok]
    rw [withDefaultGraph_rename hfix, intoUnique_rename E.injective E.dataset E.quads σ hσ _ (within_default hfix hg)
      (useless_none _ _)]
    cases intoUnique c.ds (new σ (withDefaultGraph pats g)) <;> rfl
  · rfl

theorem required_rename {σ : Subst R} (hσ : σ.Within P) {pats : List (QuadPat R)} (hfix : Fixed f P pats) {g : Option R}
    (hg : ∀ r, g = some r → P r) :
    requiredMatch c' (σ.rename f) pats (g.map f) = (requiredMatch c σ pats g).map (Subst.rename f) := by
  unfold requiredMatch
  rw [patterns_rename E]
  unfold patterns
  split
  · simp only [Out.bind_ok, intoRequiredUnique]
    rw [withDefaultGraph_rename hfix, intoUnique_rename E.injective E.dataset E.quads σ hσ _ (within_default hfix hg)
      (useless_none _ _)]
    cases intoUnique c.ds (new σ (withDefaultGraph pats g)) with
    | ok o => cases o <;> rfl
    | err _ => rfl
    | panic => rfl
    | fuel => rfl
  · rfl

theorem unique_within {σ τ : Subst R} (hσ : σ.Within P) {pats : List (QuadPat R)} {g : Option R}
    (h : uniqueMatch c σ pats g = .ok (some τ)) : τ.Within P := by
  unfold uniqueMatch at h
  obtain ⟨ps, _, h⟩ := Out.bind_eq_ok.1 h
  have hg := intoUnique_grows (Out.mapErr_eq_ok.1 h)
  exact hg.within hσ fun r ⟨q, hq, hr⟩ => E.quads q hq r hr

theorem required_within {σ τ : Subst R} (hσ : σ.Within P) {pats : List (QuadPat R)} {g : Option R}
    (h : requiredMatch c σ pats g = .ok τ) : τ.Within P := by
  unfold requiredMatch intoRequiredUnique at h
  obtain ⟨ps, _, h⟩ := Out.bind_eq_ok.1 h
  obtain ⟨o, ho, h⟩ := Out.bind_eq_ok.1 (Out.mapErr_eq_ok.1 h)
  cases o with
  | none => exact nomatch h
  | some τ' =>
    injection h with h
    subst h
    have hg := intoUnique_grows ho
    exact hg.within hσ fun r ⟨q, hq, hr⟩ => E.quads q hq r hr

theorem resource_rename {p : Pattern R} (hp : FixedPat f P p) (σ : Subst R) :
    resource c' p (σ.rename f) = (resource c p σ).map f := by
  unfold resource
  rw [value_rename hp, knows_rename E]
  split
  · cases p.value σ <;> rfl
  · rfl

omit E in
theorem resource_within {p : Pattern R} (hp : FixedPat f P p) {σ : Subst R} (hσ : σ.Within P) {r : R}
    (h : resource c p σ = .ok r) : P r := by
  unfold resource at h
  split at h
  · exact value_within hp hσ (Out.ofOption_eq_ok.1 h)
  · exact nomatch h

theorem selectInputs_rename {ps : List (Pattern R)} (hp : ∀ p ∈ ps, FixedPat f P p) (σ : Subst R) :
    selectInputs c' ps (σ.rename f) = (selectInputs c ps σ).map (List.map f) := by
  have hk : ps.all (knows c') = ps.all (knows c) := by
    congr 1
    funext p
    exact knows_rename E p
  unfold selectInputs
  rw [hk]
  split
  · clear hk
    rename_i h
    clear h
    induction ps with
    | nil => rfl
    | cons p ps ih =>
      have ih := ih fun p h => hp p (by simp [h])
      simp only [Out.mapM']
      rw [value_rename (hp p (by simp)), ih]
      cases p.value σ with
      | none => rfl
      | some r => cases Out.mapM' (fun p => (Out.ofOption (p.value σ) : Out DsError R)) ps <;> rfl
  · rfl

omit E in
theorem selectInputs_within {ps : List (Pattern R)} (hp : ∀ p ∈ ps, FixedPat f P p) {σ : Subst R} (hσ : σ.Within P)
    {rs : List R} (h : selectInputs c ps σ = .ok rs) : ∀ r ∈ rs, P r := by
  unfold selectInputs at h
  split at h
  · rw [Out.mapM'_eq_ok] at h
    induction h with
    | nil => simp
    | cons h _ ih =>
      simp only [List.mem_cons, forall_eq_or_imp]
      exact ⟨value_within (hp _ (by simp)) hσ (Out.ofOption_eq_ok.1 h), ih (fun p h => hp p (by simp [h])) (by simp_all)⟩
  · exact nomatch h

theorem selectGraph_rename {fg : Option (Option (Pattern R))} (hp : ∀ p, fg = some (some p) → FixedPat f P p) (g : Option R)
    (σ : Subst R) : selectGraph c' (g.map f) fg (σ.rename f) = (selectGraph c g fg σ).map (Option.map f) := by
  match fg, hp with
  | none, _ => rfl
  | some none, _ => rfl
  | some (some p), hp =>
    simp only [selectGraph]
    rw [resource_rename E (hp p rfl)]
    cases resource c p σ <;> rfl

omit E in
theorem selectGraph_within {fg : Option (Option (Pattern R))} (hp : ∀ p, fg = some (some p) → FixedPat f P p) {g g' : Option R}
    (hg : ∀ r, g = some r → P r) {σ : Subst R} (hσ : σ.Within P) (h : selectGraph c g fg σ = .ok g') :
    ∀ r, g' = some r → P r := by
  match fg, hp, h with
  | none, _, h => injection h with h; exact h ▸ hg
  | some none, _, h => injection h with h; subst h; simp
  | some (some p), hp, h =>
    simp only [selectGraph] at h
    cases e : resource c p σ with
    | ok r =>
      rw [e] at h
      injection h with h
      subst h
      rintro r' ⟨⟩
      exact resource_within (hp p rfl) hσ e
    | err _ => simp [e, Out.map] at h
    | panic => simp [e, Out.map] at h
    | fuel => simp [e, Out.map] at h

/-- The recursive calls correspond. -/
def RecRel (f : R → R) (P : R → Prop) (rec rec' : Rec R) : Prop :=
  ∀ (g : Option R) (ref : R) (ins : List R), (∀ r, g = some r → P r) → (∀ r ∈ ins, P r) →
    rec' (g.map f) ref (ins.map f) = rec g ref ins

theorem subValue_rename {rec rec' : Rec R} (hrec : RecRel f P rec rec') {g : Option R} (hg : ∀ r, g = some r → P r)
    {fmt : ValueFormat R} (hfmt : FixedFormat f P fmt) {σ : Subst R} (hσ : σ.Within P) :
    subValue c' rec' (g.map f) fmt (σ.rename f) = subValue c rec g fmt σ := by
  have h1 : ∀ p ∈ fmt.input, FixedPat f P p := fun p hp r e => hfmt r (.inl (e ▸ hp))
  have h2 : ∀ p, fmt.graph = some (some p) → FixedPat f P p := fun p hp r e => hfmt r (.inr (e ▸ hp))
  unfold subValue
  rw [selectInputs_rename E h1]
  refine bind_map fun ins hins => ?_
  rw [selectGraph_rename E h2]
  exact bind_map fun g' hg' => hrec _ _ _ (selectGraph_within h2 hg hσ hg') (selectInputs_within h1 hσ hins)

omit E in
theorem inputs_within {ins : List R} (h : ∀ r ∈ ins, P r) (k : Nat) : ((Subst.fromInputs ins).intro k).Within P :=
  (inv_inputs h k).within

omit E in
theorem intro_within {σ : Subst R} (h : σ.Within P) (k : Nat) : (σ.intro k).Within P :=
  (Inv.intro (P := P) (b := fun _ => False) ⟨h, fun _ h => h.elim⟩ k).within

theorem data_rename {g : Option R} (hg : ∀ r, g = some r → P r) (ref : R) {l : DataLayout R}
    (hl : ∀ r, PatsHaveConstant l.dataset r ∨ l.resource = .res r ∨ l.datatype = r → P r ∧ f r = r) {ins : List R}
    (hins : ∀ r ∈ ins, P r) : data c' (g.map f) ref l (ins.map f) = data c g ref l ins := by
  unfold data
  have hσ := inputs_within hins l.intro
  have hr : FixedPat f P l.resource := fun r e => hl r (.inr (.inl e))
  rw [← Subst.rename_fromInputs, ← Subst.rename_intro, required_rename E hσ (fun r h => hl r (.inl h)) hg]
  refine bind_map fun σ h => ?_
  rw [resource_rename E hr]
  refine bind_map fun r hr' => ?_
  rw [E.fromLiteral, E.datatypeIri, E.literals r (resource_within hr (required_within E hσ h) hr')]

theorem primValue_rename (ref : R) {r : R} (hr : P r) (p : Prim) : primValue c' ref (f r) p = primValue c ref r p := by
  have hp : ∀ lo hi, parseRange c' lo hi = parseRange c lo hi := by
    intro lo hi
    funext s
    simp only [parseRange, E.parseInt]
  cases p with
  | id => simp only [primValue, primId, E.iris r hr, E.blankIds r hr]
  | string => simp only [primValue, E.literals r hr]
  | int dt lo hi => simp only [primValue, E.literals r hr, hp]

theorem readFields_rename {rec rec' : Rec R} (hrec : RecRel f P rec rec') {g : Option R} (hg : ∀ r, g = some r → P r)
    {σ : Subst R} (hσ : σ.Within P) (fs : List (Value × Field R))
    (hfix : ∀ v ∈ fs, Fixed f P v.2.dataset ∧ FixedFormat f P v.2.value) :
    readFields c' rec' (g.map f) (σ.rename f) fs = readFields c rec g σ fs := by
  induction fs with
  | nil => rfl
  | cons e fs ih =>
    obtain ⟨k, fd⟩ := e
    have ih := ih (fun v h => hfix v (by simp [h]))
    obtain ⟨h1, h2⟩ := hfix (k, fd) (by simp)
    simp only [readFields]
    rw [← Subst.rename_intro, unique_rename E (intro_within hσ fd.intro) h1 hg]
    refine bind_map fun o ho => ?_
    cases o with
    | none =>
      simp only [Option.map_none]
      rw [ih]
    | some σ' =>
      simp only [Option.map_some]
      rw [subValue_rename E hrec hg h2 (unique_within E (intro_within hσ fd.intro) ho), ih]

theorem variants_rename {rec rec' : Rec R} (hrec : RecRel f P rec rec') {g : Option R} (hg : ∀ r, g = some r → P r) (ref : R)
    {σ : Subst R} (hσ : σ.Within P) (vs : List (Variant R))
    (hfix : ∀ v ∈ vs, Fixed f P v.dataset ∧ FixedFormat f P v.value) (i : Nat) (sel : Option (TypedValue R)) :
    variants c' rec' (g.map f) ref (σ.rename f) i vs sel = variants c rec g ref σ i vs sel := by
  induction vs generalizing i sel with
  | nil => cases sel <;> rfl
  | cons v vs ih =>
    have ih := ih (fun v h => hfix v (by simp [h]))
    obtain ⟨h1, h2⟩ := hfix v (by simp)
    simp only [variants]
    rw [← Subst.rename_intro, unique_rename E (intro_within hσ v.intro) h1 hg]
    refine bind_map fun o ho => ?_
    cases o with
    | none => exact ih _ _
    | some σ' =>
      simp only [Option.map_some]
      rw [subValue_rename E hrec hg h2 (unique_within E (intro_within hσ v.intro) ho)]
      refine bind_congr' fun w _ => ?_
      rw [ih]

theorem nodes_rename {rec rec' : Rec R} (hrec : RecRel f P rec rec') {g : Option R} (hg : ∀ r, g = some r → P r)
    {σ : Subst R} (hσ : σ.Within P) (node : ItemLayout R) (hfix : Fixed f P node.dataset ∧ FixedFormat f P node.value) {tail : R}
    (ht : P tail) (n : Nat) {head : R} (hh : P head) :
    nodes c' rec' (g.map f) node (σ.rename f) (f tail) n (f head) = nodes c rec g node σ tail n head := by
  induction n generalizing head with
  | zero =>
    unfold nodes
    by_cases h : head = tail
    · simp [h]
    · have : f head ≠ f tail := fun e => h (E.injective _ _ hh ht e)
      simp [h, this]
  | succ n ih =>
    rw [nodes, nodes]
    by_cases h : head = tail
    · simp [h]
    · have hne : f head ≠ f tail := fun e => h (E.injective _ _ hh ht e)
      have hw : ((Subst.push σ (some head)).intro (1 + node.intro)).Within P :=
        ((Inv.push (P := P) (b := fun _ => False) ⟨hσ, fun _ h => h.elim⟩ hh).intro (1 + node.intro)).within
      simp only [h, hne, if_false]
      rw [← Subst.rename_push, ← Subst.rename_intro, required_rename E hw hfix.1 hg]
      refine bind_map fun σ' hs => ?_
      have hσ' := required_within E hw hs
      rw [subValue_rename E hrec hg hfix.2 hσ']
      refine bind_congr' fun v _ => ?_
      rw [Subst.get_rename, Subst.length_rename]
      cases hx : σ'.get (σ.length + 1) with
      | none => rfl
      | some r =>
        simp only [Option.map_some, Out.ofOption_some, Out.bind_ok]
        rw [ih (hσ' _ _ hx)]

theorem sizedItems_rename {rec rec' : Rec R} (hrec : RecRel f P rec rec') {g : Option R} (hg : ∀ r, g = some r → P r)
    {σ : Subst R} (hσ : σ.Within P) (is : List (ItemLayout R))
    (hfix : ∀ v ∈ is, Fixed f P v.dataset ∧ FixedFormat f P v.value) :
    sizedItems c' rec' (g.map f) (σ.rename f) is = sizedItems c rec g σ is := by
  induction is with
  | nil => rfl
  | cons item is ih =>
    have ih := ih (fun v h => hfix v (by simp [h]))
    obtain ⟨h1, h2⟩ := hfix item (by simp)
    simp only [sizedItems]
    rw [← Subst.rename_intro, required_rename E (intro_within hσ item.intro) h1 hg]
    refine bind_map fun σ' hs => ?_
    rw [subValue_rename E hrec hg h2 (required_within E (intro_within hσ item.intro) hs), ih]

theorem unorderedItems_rename {rec rec' : Rec R} (hrec : RecRel f P rec rec') {g : Option R} (hg : ∀ r, g = some r → P r)
    {fmt : ValueFormat R} (hfmt : FixedFormat f P fmt) (n n' : Nat) (st st' : Stack R)
    (hst : List.Forall₂ (StateRel f P (fun _ => False) c.ds) st st') (hn : weight c.ds.length st < n)
    (hn' : weight c'.ds.length st' < n') :
    unorderedItems c' rec' (g.map f) fmt n' st' = unorderedItems c rec g fmt n st := by
  induction n generalizing n' st st' with
  | zero => omega
  | succ n ih =>
    cases n' with
    | zero => omega
    | succ n' =>
      simp only [unorderedItems]
      have h := next_sim (ε := DsError) E.injective E.dataset E.quads st st' hst
      have w : ∀ σ st₁, (next c.ds st : Out DsError _) = .ok (some (σ, st₁)) → weight c.ds.length st₁ < weight c.ds.length st :=
        fun σ st₁ h => nextFuel_weight _ _ _ _ _ h
      have w' : ∀ σ st₁, (next c'.ds st' : Out DsError _) = .ok (some (σ, st₁)) →
          weight c'.ds.length st₁ < weight c'.ds.length st' :=
        fun σ st₁ h => nextFuel_weight _ _ _ _ _ h
      generalize (next c.ds st : Out DsError _) = a at h w
      generalize (next c'.ds st' : Out DsError _) = a' at h w'
      cases h with
      | none => rfl
      | panic => rfl
      | @some σ st₁ st₁' hσ hst₁ =>
        have w := w _ _ rfl
        have w' := w' _ _ rfl
        simp only [Out.bind_ok]
        rw [subValue_rename E hrec hg hfmt hσ, ih n' st₁ st₁' hst₁ (by omega) (by omega)]

theorem layout_rename {rec rec' : Rec R} (hrec : RecRel f P rec rec') (n : Nat) {g : Option R} (hg : ∀ r, g = some r → P r) (ref : R)
    {ins : List R} (hins : ∀ r ∈ ins, P r) {l : Layout R} (hl : c.reg ref = some l) :
    layout c' rec' n (g.map f) ref (ins.map f) l = layout c rec n g ref ins l := by
  have hc : ∀ r, l.HasConstant r → P r ∧ f r = r := fun r h => E.constants r ⟨ref, l, hl, h⟩
  have hinv : ∀ k, ((Subst.fromInputs ins).intro k).Within P := inputs_within hins
  cases l with
  | never => rfl
  | always => rfl
  | unit l =>
    simp only [layout]
    rw [← Subst.rename_fromInputs, ← Subst.rename_intro, required_rename E (hinv l.intro) hc hg]
    exact bind_map fun _ _ => rfl
  | boolean l => exact data_rename E hg ref hc hins
  | number l => exact data_rename E hg ref hc hins
  | byteString l => exact data_rename E hg ref hc hins
  | textString l => exact data_rename E hg ref hc hins
  | id l =>
    have hr : FixedPat f P l.resource := fun r e => hc r (.inr e)
    simp only [layout]
    rw [← Subst.rename_fromInputs, ← Subst.rename_intro, required_rename E (hinv l.intro) (fun r h => hc r (.inl h)) hg]
    refine bind_map fun σ hσ => ?_
    rw [resource_rename E hr]
    refine bind_map fun r hr' => ?_
    simp only [idValue, E.iris r (resource_within hr (required_within E (hinv _) hσ) hr')]
  | sum l =>
    simp only [layout]
    rw [← Subst.rename_fromInputs, ← Subst.rename_intro, required_rename E (hinv l.intro) (fun r h => hc r (.inl h)) hg]
    refine bind_map fun σ hσ => ?_
    exact variants_rename E hrec hg ref (required_within E (hinv _) hσ) l.variants
      (fun v hv => ⟨fun r h => hc r (.inr ⟨v, hv, .inl h⟩), fun r h => hc r (.inr ⟨v, hv, .inr h⟩)⟩) 0 none
  | product l =>
    simp only [layout]
    rw [← Subst.rename_fromInputs, ← Subst.rename_intro, required_rename E (hinv l.intro) (fun r h => hc r (.inl h)) hg]
    refine bind_map fun σ hσ => ?_
    rw [readFields_rename E hrec hg (required_within E (hinv _) hσ) l.fields
      (fun v hv => ⟨fun r h => hc r (.inr ⟨v, hv, .inl h⟩), fun r h => hc r (.inr ⟨v, hv, .inr h⟩)⟩)]
  | sized l =>
    simp only [layout]
    rw [← Subst.rename_fromInputs, ← Subst.rename_intro, required_rename E (hinv l.intro) (fun r h => hc r (.inl h)) hg]
    refine bind_map fun σ hσ => ?_
    rw [sizedItems_rename E hrec hg (required_within E (hinv _) hσ) l.items
      (fun v hv => ⟨fun r h => hc r (.inr ⟨v, hv, .inl h⟩), fun r h => hc r (.inr ⟨v, hv, .inr h⟩)⟩)]
  | ordered l =>
    simp only [layout]
    rw [← Subst.rename_fromInputs, ← Subst.rename_intro, required_rename E (hinv l.intro) (fun r h => hc r (.inl h)) hg]
    refine bind_map fun σ hσ => ?_
    have hσ' := required_within E (hinv _) hσ
    have hhead : FixedPat f P l.head := fun r e => hc r (.inr (.inl e))
    have htail : FixedPat f P l.tail := fun r e => hc r (.inr (.inr (.inl e)))
    rw [resource_rename E hhead]
    refine bind_map fun h hh => ?_
    rw [resource_rename E htail]
    refine bind_map fun t ht => ?_
    rw [nodes_rename E hrec hg hσ' l.node
      ⟨fun r h => hc r (.inr (.inr (.inr (.inl h)))), fun r h => hc r (.inr (.inr (.inr (.inr h))))⟩
      (resource_within htail hσ' ht) n (resource_within hhead hσ' hh)]
  | unordered l =>
    simp only [layout]
    rw [← Subst.rename_fromInputs, ← Subst.rename_intro, required_rename E (hinv l.intro) (fun r h => hc r (.inl h)) hg]
    refine bind_map fun σ hσ => ?_
    have hσ' := required_within E (hinv _) hσ
    rw [patterns_rename E]
    have hfix : Fixed f P l.item.dataset := fun r h => hc r (.inr (.inl h))
    refine bind_congr' fun pats hp => ?_
    have hpats : pats = l.item.dataset := by
      unfold patterns at hp
      split at hp
      · injection hp with hp; exact hp.symm
      · exact nomatch hp
    subst hpats
    have hnew := new_rel (f := f) (P := P) (D := fun _ => False) (ds := c.ds) _ (intro_within hσ' l.item.intro) _
      (within_default hfix hg) (useless_none _ _)
    rw [Subst.rename_intro, ← withDefaultGraph_rename hfix] at hnew
    rw [unorderedItems_rename E hrec hg (fun r h => hc r (.inr (.inr h))) _ _ _ _ hnew (Nat.lt_succ_self _) (Nat.lt_succ_self _)]

/-- Derived deserialization of the renamed dataset. -/
theorem deserialize_rename (n : Nat) : RecRel f P (deserialize c n) (deserialize c' n) := by
  induction n with
  | zero => intro g ref ins _ _; rfl
  | succ n ih =>
    intro g ref ins hg hins
    simp only [deserialize, E.reg, E.prim]
    cases c.prim ref with
    | some p =>
      cases ins with
      | nil => rfl
      | cons r rest =>
        simp only [List.map_cons, List.head?_cons, Out.ofOption_some, Out.bind_ok]
        rw [primValue_rename E ref (hins r (by simp))]
    | none =>
      cases hl : c.reg ref with
      | none => rfl
      | some l => exact layout_rename E ih n hg ref hins hl

end Verif.Derived
