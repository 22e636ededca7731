import Verif.DsErrorSpec
import Verif.ErrorSites
import Verif.DerivePanic
import Verif.ReadBack

/-! # What the errors of derived deserialization say is true -/

set_option linter.unusedSectionVars false
set_option linter.unusedSimpArgs false

namespace Verif.Derived

variable {R : Type} [DecidableEq R] {c : DsCtx R} {rec : Rec R} {g : Option R} {x : DsError}

/-! ## Unknown resources -/

theorem not_knows {p : Pattern R} (h : ¬ knows c p = true) : ∃ r, p = .res r ∧ c.known r = false := by
  cases p with
  | var x => exact absurd rfl h
  | res r => exact ⟨r, rfl, by simpa [knows] using h⟩

/-- A resource of the patterns is unknown. -/
def UnknownIn (c : DsCtx R) (pats : List (QuadPat R)) : Prop := ∃ r, Mentions pats r ∧ c.known r = false

theorem unknownIn_iff {pats : List (QuadPat R)} : UnknownIn c pats ↔ ¬ pats.all (knowsQuad c) = true := by
  constructor
  · rintro ⟨r, ⟨q, hq, h⟩, hk⟩ hall
    have := List.all_eq_true.1 hall q hq
    simp only [knowsQuad, Bool.and_eq_true] at this
    obtain ⟨⟨⟨h1, h2⟩, h3⟩, h4⟩ := this
    rcases h with h | h | h | h
    · rw [h] at h1; simp [knows, hk] at h1
    · rw [h] at h2; simp [knows, hk] at h2
    · rw [h] at h3; simp [knows, hk] at h3
    · rw [h] at h4; simp [knows, hk] at h4
  · intro h
    simp only [List.all_eq_true, not_forall] at h
    obtain ⟨q, hq, h⟩ := h
    by_cases h1 : knows c q.s = true
    · by_cases h2 : knows c q.p = true
      · by_cases h3 : knows c q.o = true
        · cases hg : q.g with
          | none => simp [knowsQuad, h1, h2, h3, hg] at h
          | some p =>
            have h4 : ¬ knows c p = true := by simpa [knowsQuad, h1, h2, h3, hg] using h
            obtain ⟨r, rfl, hr⟩ := not_knows h4
            exact ⟨r, ⟨q, hq, .inr (.inr (.inr hg))⟩, hr⟩
        · obtain ⟨r, e, hr⟩ := not_knows h3
          exact ⟨r, ⟨q, hq, .inr (.inr (.inl e))⟩, hr⟩
      · obtain ⟨r, e, hr⟩ := not_knows h2
        exact ⟨r, ⟨q, hq, .inr (.inl e)⟩, hr⟩
    · obtain ⟨r, e, hr⟩ := not_knows h1
      exact ⟨r, ⟨q, hq, .inl e⟩, hr⟩

/-- A resource of the format is unknown. -/
def UnknownFormat (c : DsCtx R) (fmt : ValueFormat R) : Prop :=
  ∃ r, (.res r ∈ fmt.input ∨ fmt.graph = some (some (.res r))) ∧ c.known r = false

theorem unknownFormat_iff {fmt : ValueFormat R} : UnknownFormat c fmt ↔ ¬ knowsFormat c fmt = true := by
  constructor
  · rintro ⟨r, h | h, hk⟩ hall
    · simp only [knowsFormat, Bool.and_eq_true, List.all_eq_true] at hall
      have := hall.1 _ h
      simp [knows, hk] at this
    · simp [knowsFormat, h, knows, hk] at hall
  · intro h
    by_cases h1 : fmt.input.all (knows c) = true
    · obtain ⟨l, ins, gr⟩ := fmt
      rcases gr with _ | _ | p
      · simp only [knowsFormat, h1] at h; exact absurd rfl h
      · simp only [knowsFormat, h1] at h; exact absurd rfl h
      · have h2 : ¬ knows c p = true := by simpa [knowsFormat, h1] using h
        obtain ⟨r, rfl, hr⟩ := not_knows h2
        exact ⟨r, .inr rfl, hr⟩
    · simp only [List.all_eq_true, not_forall] at h1
      obtain ⟨p, hp, h1⟩ := h1
      obtain ⟨r, rfl, hr⟩ := not_knows h1
      exact ⟨r, .inl hp, hr⟩

/-! ## Matches -/

theorem required_err (hds : c.ds.Nodup) {σ : Subst R} {pats : List (QuadPat R)} (hd : Declared σ (withDefaultGraph pats g))
    (h : requiredMatch c σ pats g = .err x) :
    (x = .missingData ∧ UnknownIn c pats) ∨ (x = .missingData ∧ NoMatch c.ds σ (inGraph g pats)) ∨
      (x = .dataAmbiguity ∧ SeveralMatches c.ds σ (inGraph g pats)) := by
  unfold requiredMatch patterns at h
  split at h
  · obtain ⟨-, h2, h3⟩ := Props.C02_into_required_unique c.ds σ (withDefaultGraph pats g) hds hd
    rw [inGraph_eq]
    obtain ⟨e', he, rfl⟩ := Out.mapErr_eq_err.1 h
    cases e' with
    | empty => exact .inr (.inl ⟨rfl, h2.1 he⟩)
    | ambiguity => exact .inr (.inr ⟨rfl, h3.1 he⟩)
  · rename_i hk
    cases h
    exact .inl ⟨rfl, unknownIn_iff.2 hk⟩

theorem unique_err (hds : c.ds.Nodup) {σ : Subst R} {pats : List (QuadPat R)} (hd : Declared σ (withDefaultGraph pats g))
    (h : uniqueMatch c σ pats g = .err x) :
    (x = .missingData ∧ UnknownIn c pats) ∨ (x = .dataAmbiguity ∧ SeveralMatches c.ds σ (inGraph g pats)) := by
  unfold uniqueMatch patterns at h
  split at h
  · have h3 := (Props.C02_into_unique c.ds σ (withDefaultGraph pats g) hds hd).2.2
    rw [inGraph_eq]
    obtain ⟨e', he, rfl⟩ := Out.mapErr_eq_err.1 h
    cases e' with
    | ambiguity => exact .inr ⟨rfl, h3.1 he⟩
    | empty =>
      rw [Matching.intoUnique_eq _ _ _ hd] at he
      split at he <;> simp at he
  · rename_i hk
    cases h
    exact .inl ⟨rfl, unknownIn_iff.2 hk⟩

theorem resource_err {p : Pattern R} {σ : Subst R} (h : resource c p σ = .err x) :
    x = .missingData ∧ ∃ r, p = .res r ∧ c.known r = false := by
  unfold resource at h
  split at h
  · exact absurd h Out.ofOption_ne_err
  · rename_i hk
    cases h
    exact ⟨rfl, not_knows hk⟩

theorem subValue_err {p : Place R} {fmt : ValueFormat R} {σ : Subst R} (h : subValue c rec p.graph fmt σ = .err x) :
    (x = .missingData ∧ UnknownFormat c fmt) ∨ ∃ q, p.Sub fmt σ q ∧ rec q.graph q.layout q.inputs = .err x := by
  unfold subValue at h
  rcases Out.bind_eq_err.1 h with h | ⟨ins, h1, h⟩
  · left
    unfold selectInputs at h
    split at h
    · obtain ⟨a, -, ha⟩ := Out.mapM'_eq_err h
      exact absurd ha Out.ofOption_ne_err
    · rename_i hk
      cases h
      refine ⟨rfl, unknownFormat_iff.2 fun hf => hk ?_⟩
      simp only [knowsFormat, Bool.and_eq_true] at hf
      exact hf.1
  rcases Out.bind_eq_err.1 h with h | ⟨g, h2, h⟩
  · left
    unfold selectGraph at h
    split at h
    · cases h
    · cases h
    · rename_i pat hp
      obtain ⟨rfl, r, rfl, hr⟩ := resource_err (Out.map_eq_err.1 h)
      exact ⟨rfl, r, .inr hp, hr⟩
  exact .inr ⟨⟨g, fmt.layout, ins⟩, ⟨((selectInputs_eq_ok c _ _ _).1 h1).2, ((selectGraph_eq_ok c _ _ _ _).1 h2).2, rfl⟩, h⟩

/-! ## Parts -/

/-- An error comes from a part. -/
def PartErr (c : DsCtx R) (rec : Rec R) (g : Option R) (σ₀ : Subst R) (pats : List (QuadPat R)) (fmt : ValueFormat R) (x : DsError) : Prop :=
  (x = .missingData ∧ UnknownIn c pats) ∨ (x = .dataAmbiguity ∧ SeveralMatches c.ds σ₀ (inGraph g pats)) ∨
    ∃ τ, IsMatch c.ds σ₀ (inGraph g pats) τ ∧ subValue c rec g fmt τ = .err x

/-- A part is read, or has no match. -/
def PartOk (c : DsCtx R) (rec : Rec R) (g : Option R) (σ₀ : Subst R) (pats : List (QuadPat R)) (fmt : ValueFormat R) : Prop :=
  ¬ UnknownIn c pats ∧ (NoMatch c.ds σ₀ (inGraph g pats) ∨
    ∃ τ, UniqueMatch c.ds σ₀ (inGraph g pats) τ ∧ ∃ v, subValue c rec g fmt τ = .ok v)

theorem readFields_err (hds : c.ds.Nodup) {σ : Subst R} {fs : List (Value × Field R)}
    (hc : ∀ e ∈ fs, PatsBelow (σ.length + e.2.intro) e.2.dataset) (h : readFields c rec g σ fs = .err x) :
    ∃ e ∈ fs, PartErr c rec g (σ ++ List.replicate e.2.intro none) e.2.dataset e.2.value x := by
  induction fs with
  | nil => cases h
  | cons e fs ih =>
    obtain ⟨k, f⟩ := e
    simp only [List.forall_mem_cons] at hc
    have ih := fun h => (ih hc.2 h).imp fun e he => And.imp_left (List.mem_cons_of_mem (k, f)) he
    have hd : Declared (σ.intro f.intro) (withDefaultGraph f.dataset g) := Hydrate.declared_ext (σ := σ) hc.1 (by simp)
    unfold readFields at h
    rcases Out.bind_eq_err.1 h with h | ⟨o, ho, h⟩
    · exact ⟨(k, f), by simp, (unique_err hds hd h).imp id .inl⟩
    · cases o with
      | none =>
        rcases Out.bind_eq_err.1 h with h | ⟨_, -, h⟩
        · exact ih h
        · cases h
      | some σ' =>
        rcases Out.bind_eq_err.1 h with h | ⟨v, -, h⟩
        · exact ⟨(k, f), by simp, .inr (.inr ⟨σ', ((uniqueMatch_eq_some c hds _ _ _ hd σ').1 ho).2.1, h⟩)⟩
        · rcases Out.bind_eq_err.1 h with h | ⟨_, -, h⟩
          · exact ih h
          · cases h

theorem readFields_ok (hds : c.ds.Nodup) {σ : Subst R} {fs : List (Value × Field R)}
    (hc : ∀ e ∈ fs, PatsBelow (σ.length + e.2.intro) e.2.dataset) {os : List (Option (TypedValue R))}
    (h : readFields c rec g σ fs = .ok os) :
    (∀ e ∈ fs, PartOk c rec g (σ ++ List.replicate e.2.intro none) e.2.dataset e.2.value) ∧
    (unwrapFields fs os = .err x → ∃ e ∈ fs, e.2.required = true ∧ x = .missingField e.1 ∧
      NoMatch c.ds (σ ++ List.replicate e.2.intro none) (inGraph g e.2.dataset)) ∧
    (∀ m, unwrapFields fs os = .ok m → ∀ e ∈ fs, e.2.required = true →
      ¬ NoMatch c.ds (σ ++ List.replicate e.2.intro none) (inGraph g e.2.dataset)) := by
  induction fs generalizing os with
  | nil => exact ⟨by simp, fun h => by simp [unwrapFields] at h, by simp⟩
  | cons e fs ih =>
    obtain ⟨k, f⟩ := e
    simp only [List.forall_mem_cons] at hc
    have hd : Declared (σ.intro f.intro) (withDefaultGraph f.dataset g) := Hydrate.declared_ext (σ := σ) hc.1 (by simp)
    unfold readFields at h
    obtain ⟨o, ho, h⟩ := Out.bind_eq_ok.1 h
    cases o with
    | none =>
      obtain ⟨os', hos, h⟩ := Out.bind_eq_ok.1 h
      cases h
      obtain ⟨i1, i2, i3⟩ := ih hc.2 hos
      have hu := (uniqueMatch_eq_none c hds _ _ _ hd).1 ho
      refine ⟨List.forall_mem_cons.2 ⟨⟨fun hn => unknownIn_iff.1 hn hu.1, .inl hu.2⟩, i1⟩, ?_, ?_⟩
      · intro h
        unfold unwrapFields at h
        split at h
        · rename_i hr
          cases h
          exact ⟨(k, f), by simp, hr, rfl, hu.2⟩
        · exact (i2 h).imp fun e he => And.imp_left (List.mem_cons_of_mem (k, f)) he
      · intro m h
        unfold unwrapFields at h
        split at h
        · cases h
        · rename_i hr
          exact List.forall_mem_cons.2 ⟨fun hr' => absurd hr' hr, i3 m h⟩
    | some τ =>
      obtain ⟨v, hv, h⟩ := Out.bind_eq_ok.1 h
      obtain ⟨os', hos, h⟩ := Out.bind_eq_ok.1 h
      cases h
      obtain ⟨i1, i2, i3⟩ := ih hc.2 hos
      have hu := (uniqueMatch_eq_some c hds _ _ _ hd τ).1 ho
      refine ⟨List.forall_mem_cons.2 ⟨⟨fun hn => unknownIn_iff.1 hn hu.1, .inr ⟨τ, hu.2, v, hv⟩⟩, i1⟩, ?_, ?_⟩
      · intro h
        unfold unwrapFields at h
        rcases Out.bind_eq_err.1 h with h | ⟨_, -, h⟩
        · exact (i2 h).imp fun e he => And.imp_left (List.mem_cons_of_mem (k, f)) he
        · cases h
      · intro m h
        unfold unwrapFields at h
        obtain ⟨m', hm, -⟩ := Out.bind_eq_ok.1 h
        exact List.forall_mem_cons.2 ⟨fun _ hno => hno τ hu.2.1, i3 m' hm⟩

theorem variants_err (hds : c.ds.Nodup) {ref : R} {σ : Subst R} {vs : List (Variant R)}
    (hc : ∀ v ∈ vs, PatsBelow (σ.length + v.intro) v.dataset) {i : Nat} {result : Option (TypedValue R)}
    (h : variants c rec g ref σ i vs result = .err x) :
    (∃ v ∈ vs, PartErr c rec g (σ ++ List.replicate v.intro none) v.dataset v.value x) ∨
    (x = .missingData ∧ result = none ∧ ∀ v ∈ vs, NoMatch c.ds (σ ++ List.replicate v.intro none) (inGraph g v.dataset)) ∨
    (x = .dataAmbiguity ∧ ∃ (j : Nat) (v : Variant R) (τ : Subst R), vs[j]? = some v ∧
      IsMatch c.ds (σ ++ List.replicate v.intro none) (inGraph g v.dataset) τ ∧
      (result ≠ none ∨ ∃ (k : Nat) (w : Variant R) (τ' : Subst R), k ≠ j ∧ vs[k]? = some w ∧
        IsMatch c.ds (σ ++ List.replicate w.intro none) (inGraph g w.dataset) τ')) := by
  induction vs generalizing i result with
  | nil =>
    cases result with
    | none => cases h; exact .inr (.inl ⟨rfl, rfl, by simp⟩)
    | some w => cases h
  | cons y vs ih =>
    simp only [List.forall_mem_cons] at hc
    have ih := fun {i result} h => ih hc.2 (i := i) (result := result) h
    have hd : Declared (σ.intro y.intro) (withDefaultGraph y.dataset g) := Hydrate.declared_ext (σ := σ) hc.1 (by simp)
    unfold variants at h
    rcases Out.bind_eq_err.1 h with h | ⟨o, ho, h⟩
    · exact .inl ⟨y, by simp, (unique_err hds hd h).imp id .inl⟩
    · cases o with
      | none =>
        have hu := ((uniqueMatch_eq_none c hds _ _ _ hd).1 ho).2
        rcases ih h with ⟨v, hv, he⟩ | ⟨h1, h2, h3⟩ | ⟨h1, j, v, τ, hj, hm, hr⟩
        · exact .inl ⟨v, by simp [hv], he⟩
        · exact .inr (.inl ⟨h1, h2, List.forall_mem_cons.2 ⟨hu, h3⟩⟩)
        · refine .inr (.inr ⟨h1, j + 1, v, τ, by simpa using hj, hm, hr.imp id ?_⟩)
          rintro ⟨k, w, τ', hk, hw, hm'⟩
          exact ⟨k + 1, w, τ', by omega, by simpa using hw, hm'⟩
      | some σ' =>
        have hu := ((uniqueMatch_eq_some c hds _ _ _ hd σ').1 ho).2
        rcases Out.bind_eq_err.1 h with h | ⟨v, -, h⟩
        · exact .inl ⟨y, by simp, .inr (.inr ⟨σ', hu.1, h⟩)⟩
        · split at h
          · rename_i hs
            cases h
            exact .inr (.inr ⟨rfl, 0, y, σ', rfl, hu.1, .inl (by rintro rfl; cases hs)⟩)
          · rcases ih h with ⟨v, hv, he⟩ | ⟨h1, h2, h3⟩ | ⟨h1, j, v, τ, hj, hm, -⟩
            · exact .inl ⟨v, by simp [hv], he⟩
            · cases h2
            · exact .inr (.inr ⟨h1, j + 1, v, τ, by simpa using hj, hm, .inr ⟨0, y, σ', by omega, rfl, hu.1⟩⟩)

theorem variants_parts (hds : c.ds.Nodup) {ref : R} {σ : Subst R} {vs : List (Variant R)}
    (hc : ∀ v ∈ vs, PatsBelow (σ.length + v.intro) v.dataset) {i : Nat} {result : Option (TypedValue R)} {v : TypedValue R}
    (h : variants c rec g ref σ i vs result = .ok v) :
    ∀ v ∈ vs, PartOk c rec g (σ ++ List.replicate v.intro none) v.dataset v.value := by
  induction vs generalizing i result with
  | nil => simp
  | cons y vs ih =>
    simp only [List.forall_mem_cons] at hc
    have hd : Declared (σ.intro y.intro) (withDefaultGraph y.dataset g) := Hydrate.declared_ext (σ := σ) hc.1 (by simp)
    unfold variants at h
    obtain ⟨o, ho, h⟩ := Out.bind_eq_ok.1 h
    cases o with
    | none =>
      have hu := (uniqueMatch_eq_none c hds _ _ _ hd).1 ho
      exact List.forall_mem_cons.2 ⟨⟨fun hn => unknownIn_iff.1 hn hu.1, .inl hu.2⟩, ih hc.2 h⟩
    | some τ =>
      have hu := (uniqueMatch_eq_some c hds _ _ _ hd τ).1 ho
      obtain ⟨w, hw, h⟩ := Out.bind_eq_ok.1 h
      split at h
      · cases h
      · exact List.forall_mem_cons.2 ⟨⟨fun hn => unknownIn_iff.1 hn hu.1, .inr ⟨τ, hu.2, w, hw⟩⟩, ih hc.2 h⟩

theorem sizedItems_err (hds : c.ds.Nodup) {σ : Subst R} {is : List (ItemLayout R)}
    (hc : ∀ e ∈ is, PatsBelow (σ.length + e.intro) e.dataset) (h : sizedItems c rec g σ is = .err x) :
    ∃ e ∈ is, PartErr c rec g (σ ++ List.replicate e.intro none) e.dataset e.value x ∨
      (x = .missingData ∧ NoMatch c.ds (σ ++ List.replicate e.intro none) (inGraph g e.dataset)) := by
  induction is with
  | nil => cases h
  | cons f fs ih =>
    simp only [List.forall_mem_cons] at hc
    have hd : Declared (σ.intro f.intro) (withDefaultGraph f.dataset g) := Hydrate.declared_ext (σ := σ) hc.1 (by simp)
    unfold sizedItems at h
    rcases Out.bind_eq_err.1 h with h | ⟨σ', ho, h⟩
    · refine ⟨f, by simp, ?_⟩
      rcases required_err hds hd h with h | h | h
      · exact .inl (.inl h)
      · exact .inr h
      · exact .inl (.inr (.inl h))
    · rcases Out.bind_eq_err.1 h with h | ⟨v, -, h⟩
      · exact ⟨f, by simp, .inl (.inr (.inr ⟨σ', ((requiredMatch_eq_ok c hds _ _ _ hd σ').1 ho).2.1, h⟩))⟩
      · rcases Out.bind_eq_err.1 h with h | ⟨_, -, h⟩
        · obtain ⟨e, he, r⟩ := ih hc.2 h
          exact ⟨e, by simp [he], r⟩
        · cases h

theorem sizedItems_parts (hds : c.ds.Nodup) {σ : Subst R} {is : List (ItemLayout R)}
    (hc : ∀ e ∈ is, PatsBelow (σ.length + e.intro) e.dataset) {vs : List (TypedValue R)} (h : sizedItems c rec g σ is = .ok vs) :
    ∀ e ∈ is, PartOk c rec g (σ ++ List.replicate e.intro none) e.dataset e.value ∧
      ¬ NoMatch c.ds (σ ++ List.replicate e.intro none) (inGraph g e.dataset) := by
  induction is generalizing vs with
  | nil => simp
  | cons f fs ih =>
    simp only [List.forall_mem_cons] at hc
    have hd : Declared (σ.intro f.intro) (withDefaultGraph f.dataset g) := Hydrate.declared_ext (σ := σ) hc.1 (by simp)
    unfold sizedItems at h
    obtain ⟨τ, ho, h⟩ := Out.bind_eq_ok.1 h
    obtain ⟨v, hv, h⟩ := Out.bind_eq_ok.1 h
    obtain ⟨r, hr, -⟩ := Out.bind_eq_ok.1 h
    have hu := (requiredMatch_eq_ok c hds _ _ _ hd τ).1 ho
    exact List.forall_mem_cons.2 ⟨⟨⟨fun hn => unknownIn_iff.1 hn hu.1, .inr ⟨τ, hu.2, v, hv⟩⟩, fun hno => hno τ hu.2.1⟩, ih hc.2 hr⟩

theorem nodes_err (hds : c.ds.Nodup) {σ : Subst R} {node : ItemLayout R} {tail : R}
    (hc : PatsBelow (σ.length + 2 + node.intro) node.dataset) {n : Nat} {head : R} (h : nodes c rec g node σ tail n head = .err x) :
    ∃ r, ListReaches c.ds g node σ tail head r ∧
      (PartErr c rec g (σ ++ [some r, none] ++ List.replicate node.intro none) node.dataset node.value x ∨
      (x = .missingData ∧ NoMatch c.ds (σ ++ [some r, none] ++ List.replicate node.intro none) (inGraph g node.dataset))) := by
  induction n generalizing head with
  | zero => unfold nodes at h; split at h <;> cases h
  | succ n ih =>
    unfold nodes at h
    split at h
    · cases h
    · rename_i hne
      have hd : Declared ((Subst.push σ (some head)).intro (1 + node.intro)) (withDefaultGraph node.dataset g) :=
        Hydrate.declared_ext (σ := σ) hc (by simp [Subst.push]; omega)
      rcases Out.bind_eq_err.1 h with h | ⟨σ', ho, h⟩
      · have := required_err hds hd h
        rw [Hydrate.intro_push] at this
        refine ⟨head, .here hne, ?_⟩
        rcases this with h | h | h
        · exact .inl (.inl h)
        · exact .inr h
        · exact .inl (.inr (.inl h))
      · have hu := ((requiredMatch_eq_ok c hds _ _ _ hd σ').1 ho).2
        rw [Hydrate.intro_push] at hu
        rcases Out.bind_eq_err.1 h with h | ⟨v, -, h⟩
        · exact ⟨head, .here hne, .inl (.inr (.inr ⟨σ', hu.1, h⟩))⟩
        · rcases Out.bind_eq_err.1 h with h | ⟨next, hn, h⟩
          · exact absurd h Out.ofOption_ne_err
          · have hn := (Out.ofOption_eq_ok).1 hn
            rcases Out.bind_eq_err.1 h with h | ⟨_, -, h⟩
            · obtain ⟨r, h1, h2⟩ := ih h
              exact ⟨r, .after hne hu hn h1, h2⟩
            · cases h

theorem nodes_parts (hds : c.ds.Nodup) {σ : Subst R} {node : ItemLayout R} {tail : R}
    (hc : PatsBelow (σ.length + 2 + node.intro) node.dataset) {n : Nat} {head : R} {vs : List (TypedValue R)}
    (h : nodes c rec g node σ tail n head = .ok vs) {r : R} (hr : ListReaches c.ds g node σ tail head r) :
    PartOk c rec g (σ ++ [some r, none] ++ List.replicate node.intro none) node.dataset node.value ∧
      ¬ NoMatch c.ds (σ ++ [some r, none] ++ List.replicate node.intro none) (inGraph g node.dataset) := by
  induction n generalizing head vs with
  | zero =>
    unfold nodes at h
    split at h
    · rename_i e
      cases hr with
      | here hne => exact absurd e hne
      | after hne => exact absurd e hne
    · cases h
  | succ n ih =>
    unfold nodes at h
    split at h
    · rename_i e
      cases hr with
      | here hne => exact absurd e hne
      | after hne => exact absurd e hne
    · rename_i hne
      have hd : Declared ((Subst.push σ (some head)).intro (1 + node.intro)) (withDefaultGraph node.dataset g) :=
        Hydrate.declared_ext (σ := σ) hc (by simp [Subst.push]; omega)
      obtain ⟨τ, ho, h⟩ := Out.bind_eq_ok.1 h
      have hu := (requiredMatch_eq_ok c hds _ _ _ hd τ).1 ho
      rw [Hydrate.intro_push] at hu
      obtain ⟨v, hv, h⟩ := Out.bind_eq_ok.1 h
      obtain ⟨next, hn, h⟩ := Out.bind_eq_ok.1 h
      have hn := (Out.ofOption_eq_ok).1 hn
      obtain ⟨vs', hvs, -⟩ := Out.bind_eq_ok.1 h
      cases hr with
      | here _ => exact ⟨⟨fun hn => unknownIn_iff.1 hn hu.1, .inr ⟨τ, hu.2, v, hv⟩⟩, fun hno => hno τ hu.2.1⟩
      | after _ hu' hget hrest =>
        obtain rfl := hu'.2 _ hu.2.1
        rw [hget, Option.some.injEq] at hn
        subst hn
        exact ih hvs hrest

/-! ## Literals -/

theorem literalResult_err {α} {ls : List RdfLit} {o : Option α} (h : literalResult ls o = .err x) :
    o = none ∧ ((x = .expectedLiteral ∧ ls = []) ∨ (x = .literalTypeMismatch ∧ ls ≠ [])) := by
  cases o with
  | some a => cases h
  | none =>
    simp only [literalResult] at h
    split at h
    · rename_i e; cases h; exact ⟨rfl, .inl ⟨rfl, List.isEmpty_iff.1 e⟩⟩
    · rename_i e; cases h; exact ⟨rfl, .inr ⟨rfl, fun he => e (by rw [he]; rfl)⟩⟩

theorem scan_err {α} {parse : String → Option α} {dt : String} {P : RdfLit → Bool}
    (hP : ∀ lit, P lit = true ↔ literalType lit = dt ∧ (parse lit.value).isSome = true) {ls : List RdfLit} {o : Option α}
    (h : scan parse dt ls o = .err x) :
    x = .ambiguousLiteralValue ∧ 2 ≤ (ls.filter P).length + (if o.isSome then 1 else 0) := by
  induction ls generalizing o with
  | nil => cases h
  | cons l ls ih =>
    unfold scan at h
    split at h
    · rename_i ht
      split at h
      · rename_i v hv
        have hp : P l = true := (hP l).2 ⟨ht, by rw [hv]; rfl⟩
        rw [List.filter_cons_of_pos hp, List.length_cons]
        split at h
        · rename_i hs; cases h; exact ⟨rfl, by rw [if_pos hs]; omega⟩
        · have := ih h
          simp only [Option.isSome_some, if_true] at this
          exact ⟨this.1, by omega⟩
      · rename_i hv
        have hp : ¬ P l = true := fun hp => by have := ((hP l).1 hp).2; rw [hv] at this; cases this
        rw [List.filter_cons_of_neg hp]; exact ih h
    · rename_i ht
      have hp : ¬ P l = true := fun hp => ht ((hP l).1 hp).1
      rw [List.filter_cons_of_neg hp]; exact ih h

theorem scan_ok {α} {parse : String → Option α} {dt : String} {P : RdfLit → Bool}
    (hP : ∀ lit, P lit = true ↔ literalType lit = dt ∧ (parse lit.value).isSome = true) {ls : List RdfLit} {o r : Option α}
    (h : scan parse dt ls o = .ok r) :
    (ls.filter P).length + (if o.isSome then 1 else 0) ≤ 1 ∧ (r = none ↔ o = none ∧ ∀ lit ∈ ls, ¬ P lit = true) := by
  induction ls generalizing o with
  | nil => cases h; exact ⟨by cases r <;> simp, by simp⟩
  | cons l ls ih =>
    unfold scan at h
    split at h
    · rename_i ht
      split at h
      · rename_i v hv
        have hp : P l = true := (hP l).2 ⟨ht, by rw [hv]; rfl⟩
        rw [List.filter_cons_of_pos hp, List.length_cons]
        split at h
        · cases h
        · rename_i hs
          have := ih h
          simp only [Option.isSome_some, if_true] at this
          refine ⟨by rw [if_neg hs]; omega, ?_⟩
          rw [this.2]
          simp [hp]
      · rename_i hv
        have hp : ¬ P l = true := fun hp => by have := ((hP l).1 hp).2; rw [hv] at this; cases this
        rw [List.filter_cons_of_neg hp]
        exact ⟨(ih h).1, by rw [(ih h).2, List.forall_mem_cons]; simp [hp]⟩
    · rename_i ht
      have hp : ¬ P l = true := fun hp => ht ((hP l).1 hp).1
      rw [List.filter_cons_of_neg hp]
      exact ⟨(ih h).1, by rw [(ih h).2, List.forall_mem_cons]; simp [hp]⟩

theorem scanInt_err {parse : String → Option Int} {dt : String} {ls : List RdfLit} {o : Option Int}
    (h : scanInt parse dt ls o = .err x) :
    (x = .invalidLiteralValue ∧ ∃ lit ∈ ls, lit.type = .any dt ∧ parse lit.value = none) ∨
    (x = .ambiguousLiteralValue ∧ 2 ≤ (ls.filter fun lit => lit.type == .any dt).length + (if o.isSome then 1 else 0)) := by
  induction ls generalizing o with
  | nil => cases h
  | cons l ls ih =>
    have ih := fun {o} h => (ih (o := o) h).imp_left
      (And.imp_right (Exists.imp fun l' => And.imp_left (List.mem_cons_of_mem l)))
    unfold scanInt at h
    split at h
    · rename_i ht
      have hp : (l.type == .any dt) = true := by simpa using ht
      rw [List.filter_cons_of_pos (by exact hp), List.length_cons]
      split at h
      · split at h
        · rename_i hs; cases h; exact .inr ⟨rfl, by rw [if_pos hs]; omega⟩
        · refine (ih h).imp_right fun this => ?_
          simp only [Option.isSome_some, if_true] at this
          exact ⟨this.1, by omega⟩
      · rename_i hv
        cases h
        exact .inl ⟨rfl, l, by simp, ht, hv⟩
    · rename_i ht
      rw [List.filter_cons_of_neg (by simpa using ht)]; exact ih h

theorem scanInt_ok {parse : String → Option Int} {dt : String} {ls : List RdfLit} {o r : Option Int}
    (h : scanInt parse dt ls o = .ok r) :
    (ls.filter fun lit => lit.type == .any dt).length + (if o.isSome then 1 else 0) ≤ 1 ∧
    (∀ lit ∈ ls, lit.type = .any dt → parse lit.value ≠ none) ∧
    (r = none ↔ o = none ∧ ∀ lit ∈ ls, lit.type ≠ .any dt) := by
  induction ls generalizing o with
  | nil => cases h; exact ⟨by cases r <;> simp, by simp, by simp⟩
  | cons l ls ih =>
    unfold scanInt at h
    split at h
    · rename_i ht
      have hp : (l.type == .any dt) = true := by simpa using ht
      rw [List.filter_cons_of_pos (by exact hp), List.length_cons]
      split at h
      · rename_i v hv
        split at h
        · cases h
        · rename_i hs
          have := ih h
          simp only [Option.isSome_some, if_true] at this
          refine ⟨by rw [if_neg hs]; omega, List.forall_mem_cons.2 ⟨fun _ => by simp [hv], this.2.1⟩, ?_⟩
          rw [this.2.2]
          simp [ht]
      · cases h
    · rename_i ht
      rw [List.filter_cons_of_neg (by simpa using ht)]
      obtain ⟨i1, i2, i3⟩ := ih h
      exact ⟨i1, List.forall_mem_cons.2 ⟨fun h => absurd h ht, i2⟩, by rw [i3, List.forall_mem_cons]; simp [ht]⟩

theorem parseRange_eq_none {lo hi : Int} {s : String} : parseRange c lo hi s = none ↔ ¬ c.IntWithin lo hi s := by
  unfold parseRange DsCtx.IntWithin
  cases c.parseInt s with
  | none => simp
  | some z => simp [Option.filter_eq_none_iff]

theorem primString_err {ls : List RdfLit} (h : primString ls = .err x) :
    x = .missingData ∧ ∀ lit ∈ ls, lit.type ≠ .any xsdString := by
  induction ls with
  | nil => cases h; exact ⟨rfl, by simp⟩
  | cons l ls ih =>
    unfold primString at h
    split at h
    · cases h
    · rename_i ht
      exact ⟨(ih h).1, List.forall_mem_cons.2 ⟨ht, (ih h).2⟩⟩

theorem primString_ok {ls : List RdfLit} {s : String} (h : primString ls = .ok s) : ¬ ∀ lit ∈ ls, lit.type ≠ .any xsdString := by
  induction ls with
  | nil => cases h
  | cons l ls ih =>
    unfold primString at h
    split at h
    · rename_i ht; exact fun h => h l (by simp) ht
    · exact fun hn => ih h fun l hl => hn l (by simp [hl])

/-! ## Types of the runtime -/

theorem exists_of_map_ok {ε α β} {o : Out ε α} {f : α → β} {b : β} (h : o.map f = .ok b) : ∃ a, o = .ok a := by
  cases o with
  | ok a => exact ⟨a, rfl⟩
  | err e => cases h
  | panic => cases h
  | fuel => cases h

theorem prim_err {p : Place R} {k : Prim} (hk : c.prim p.layout = some k) {r : R} {rest : List R} (hi : p.inputs = r :: rest)
    (h : primValue c p.layout r k = .err x) : DsCause c p x := by
  cases k with
  | id =>
    have h := Out.map_eq_err.1 h
    unfold primId at h
    split at h
    · cases h
    · rename_i e; cases h; exact .primIds hk hi (.inl (by rw [e]; simp))
    · rename_i e
      split at h
      · rename_i e'; cases h; exact .primNoId hk hi e e'
      · cases h
      · rename_i e'; cases h; exact .primIds hk hi (.inr ⟨e, by rw [e']; simp⟩)
  | string =>
    obtain ⟨rfl, h'⟩ := primString_err (Out.map_eq_err.1 h)
    exact .primNoString hk hi h'
  | int dt lo hi' =>
    rcases Out.bind_eq_err.1 h with h | ⟨o, ho, h⟩
    · rcases scanInt_err h with ⟨rfl, lit, hl, ht, hv⟩ | ⟨rfl, hn⟩
      · exact .primInvalid hk hi hl ht (parseRange_eq_none.1 hv)
      · exact .primLiterals hk hi (by simpa using hn)
    · obtain ⟨rfl, h'⟩ := literalResult_err (Out.map_eq_err.1 h)
      rcases h' with ⟨hx, h'⟩ | ⟨hx, h'⟩ <;> subst hx
      · exact .primNoLiteral hk hi h'
      · exact .primMismatch hk hi h' ((scanInt_ok ho).2.2.1 rfl).2

theorem prim_fine {p : Place R} {k : Prim} (hk : c.prim p.layout = some k) {r : R} {rest : List R} (hi : p.inputs = r :: rest)
    {t : TypedLiteral R} (h : primValue c p.layout r k = .ok t) : ¬ DsCause c p x := by
  have hder : ∀ l, ¬ p.Derived c l := fun l hl => by rw [hl.1] at hk; cases hk
  have hpart : ∀ {kind σ₀ pats fmt}, ¬ DsPart c p kind σ₀ pats fmt := by
    intro kind σ₀ pats fmt hp
    cases hp <;> exact hder _ (by assumption)
  intro hc
  cases hc with
  | unknown hu _ =>
    cases hu with
    | own h1 _ => exact hder _ h1
    | described h1 _ _ => exact hder _ h1
    | part h1 _ => exact hpart h1
    | input h1 _ _ => exact hpart h1
    | graph h1 _ _ => exact hpart h1
  | missing h1 _ => exact hder _ h1
  | ambiguous h1 _ => exact hder _ h1
  | noField h1 _ => exact hpart h1
  | noNode h1 _ => exact hpart h1
  | noItem h1 _ => exact hpart h1
  | several h1 _ _ => exact hpart h1
  | noVariant h1 _ _ => exact hder _ h1
  | variants h1 _ _ _ _ _ _ => exact hder _ h1
  | noId h1 _ _ _ => exact hder _ h1
  | ids h1 _ _ _ => exact hder _ h1
  | noLiteral h1 _ => obtain ⟨l, σ, h1, -⟩ := h1; exact hder _ h1
  | mismatch h1 _ _ => obtain ⟨l, σ, h1, -⟩ := h1; exact hder _ h1
  | literals h1 _ => obtain ⟨l, σ, h1, -⟩ := h1; exact hder _ h1
  | primNoId h1 h2 h3 h4 =>
    rw [hk] at h1; cases h1; rw [hi] at h2; cases h2
    simp [primValue, primId, h3, h4, Out.map] at h
  | primIds h1 h2 h3 =>
    rw [hk] at h1; cases h1; rw [hi] at h2; cases h2
    rcases h3 with h3 | ⟨h3, h4⟩
    · rcases hr : c.irisOf r with _ | ⟨a, _ | ⟨b, l⟩⟩
      · rw [hr] at h3; simp at h3
      · rw [hr] at h3; simp at h3
      · simp [primValue, primId, hr, Out.map] at h
    · rcases hr : c.blankIdsOf r with _ | ⟨a, _ | ⟨b, l⟩⟩
      · rw [hr] at h4; simp at h4
      · rw [hr] at h4; simp at h4
      · simp [primValue, primId, h3, hr, Out.map] at h
  | primNoString h1 h2 h3 =>
    rw [hk] at h1; cases h1; rw [hi] at h2; cases h2
    obtain ⟨s, hs⟩ := exists_of_map_ok h
    exact primString_ok hs h3
  | primNoLiteral h1 h2 h3 =>
    rw [hk] at h1; cases h1; rw [hi] at h2; cases h2
    simp [primValue, h3, scanInt, literalResult, Out.map, Out.bind] at h
  | primMismatch h1 h2 h3 h4 =>
    rw [hk] at h1; cases h1; rw [hi] at h2; cases h2
    obtain ⟨o, ho, h⟩ := Out.bind_eq_ok.1 h
    obtain ⟨z, hz⟩ := exists_of_map_ok h
    rw [literalResult_eq_ok, (scanInt_ok ho).2.2.2 ⟨rfl, h4⟩] at hz
    cases hz
  | primInvalid h1 h2 h3 h4 h5 =>
    rw [hk] at h1; cases h1; rw [hi] at h2; cases h2
    obtain ⟨o, ho, h⟩ := Out.bind_eq_ok.1 h
    exact (scanInt_ok ho).2.1 _ h3 h4 (parseRange_eq_none.2 h5)
  | primLiterals h1 h2 h3 =>
    rw [hk] at h1; cases h1; rw [hi] at h2; cases h2
    obtain ⟨o, ho, h⟩ := Out.bind_eq_ok.1 h
    have := (scanInt_ok ho).1
    simp only [Option.isSome_none, Bool.false_eq_true, if_false] at this
    omega

/-! ## Derived types: errors -/

/-- The value at a place. -/
abbrev at_ (rec : Rec R) (p : Place R) : Out DsError (TypedValue R) := rec p.graph p.layout p.inputs

/-- An error is explained at the place, or at the place of a part. -/
def Explained (c : DsCtx R) (rec : Rec R) (p : Place R) (x : DsError) : Prop :=
  DsCause c p x ∨ ∃ q, p.DsReads c q ∧ at_ rec q = .err x

variable {p : Place R}

theorem sub_err {kind : PartKind} {σ₀ τ : Subst R} {pats : List (QuadPat R)} {fmt : ValueFormat R} (hp : DsPart c p kind σ₀ pats fmt)
    (hm : IsMatch c.ds σ₀ (inGraph p.graph pats) τ) (h : subValue c rec p.graph fmt τ = .err x) : Explained c rec p x := by
  rcases subValue_err h with ⟨rfl, r, hr | hr, hk⟩ | ⟨q, hq, h⟩
  · exact .inl (.unknown (.input hp hm hr) hk)
  · exact .inl (.unknown (.graph hp hm hr) hk)
  · exact .inr ⟨q, ⟨_, _, _, _, _, hp, hm, hq⟩, h⟩

theorem part_err {kind : PartKind} {σ₀ : Subst R} {pats : List (QuadPat R)} {fmt : ValueFormat R} (hp : DsPart c p kind σ₀ pats fmt)
    (hk : kind ≠ .element) (h : PartErr c rec p.graph σ₀ pats fmt x) : Explained c rec p x := by
  rcases h with ⟨rfl, r, hr, hu⟩ | ⟨rfl, h⟩ | ⟨τ, hm, h⟩
  · exact .inl (.unknown (.part hp hr) hu)
  · exact .inl (.several hp hk h)
  · exact sub_err hp hm h

section Layout

variable (hds : c.ds.Nodup) {l : Layout R} (hder : p.Derived c l)
include hds hder

theorem own_err {k : Nat} (hc : PatsBelow (k + l.own.1) l.own.2) (hi : p.inputs.length = k)
    (h : requiredMatch c ((Subst.fromInputs p.inputs).intro l.own.1) l.own.2 p.graph = .err x) : DsCause c p x := by
  have hd : Declared ((Subst.fromInputs p.inputs).intro l.own.1) (withDefaultGraph l.own.2 p.graph) :=
    Hydrate.declared_ext (σ := []) hc (by simp [Subst.fromInputs, hi])
  rcases required_err hds hd h with ⟨rfl, r, hr, hu⟩ | ⟨rfl, h'⟩ | ⟨rfl, h'⟩
  · exact .unknown (.own hder hr) hu
  · exact .missing hder h'
  · exact .ambiguous hder h'

omit hder in
theorem own_ok {k : Nat} (hc : PatsBelow (k + l.own.1) l.own.2) (hi : p.inputs.length = k) {σ : Subst R}
    (h : requiredMatch c ((Subst.fromInputs p.inputs).intro l.own.1) l.own.2 p.graph = .ok σ) :
    ¬ UnknownIn c l.own.2 ∧ p.OnlyMatch c l σ ∧ σ.length = k + l.own.1 := by
  have hd : Declared ((Subst.fromInputs p.inputs).intro l.own.1) (withDefaultGraph l.own.2 p.graph) :=
    Hydrate.declared_ext (σ := []) hc (by simp [Subst.fromInputs, hi])
  obtain ⟨h1, h2⟩ := (requiredMatch_eq_ok c hds _ _ _ hd σ).1 h
  refine ⟨fun hn => unknownIn_iff.1 hn h1, h2, ?_⟩
  rw [isMatch_length h2.1, Hydrate.length_intro]
  simp [Subst.fromInputs, hi]

omit hds in
theorem described_err {σ : Subst R} (hm : p.OnlyMatch c l σ) {pat : Pattern R} (hp : pat ∈ l.described)
    (h : resource c pat σ = .err x) : DsCause c p x := by
  obtain ⟨rfl, r, rfl, hr⟩ := resource_err h
  exact .unknown (.described hder hm hp) hr

theorem data_err {d : DataLayout R} (hl : l.literalLayout = some d) (ho : l.own = (d.intro, d.dataset)) (hd : d.resource ∈ l.described)
    (hc : PatsBelow (1 + d.intro) d.dataset) (hi : p.inputs.length = 1) (h : data c p.graph p.layout d p.inputs = .err x) :
    DsCause c p x := by
  have hc' : PatsBelow (1 + l.own.1) l.own.2 := by rw [ho]; exact hc
  unfold data at h
  rcases Out.bind_eq_err.1 h with h | ⟨σ, hσ, h⟩
  · exact own_err hds hder hc' hi (by rw [ho]; exact h)
  · obtain ⟨-, hm, -⟩ := own_ok hds (l := l) hc' hi (by rw [ho]; exact hσ)
    rcases Out.bind_eq_err.1 h with h | ⟨r, hr, h⟩
    · exact described_err hder hm hd h
    · have hread : p.ReadsLiteral c d r := ⟨l, σ, hder, hl, hm, ((resource_eq_ok c _ _ _).1 hr).2⟩
      have hP : ∀ lit : RdfLit, decide (c.Readable p.layout d.datatype lit) = true ↔
          literalType lit = c.datatypeIri d.datatype ∧ (c.fromLiteral p.layout lit.value).isSome = true := fun lit => by
        rw [decide_eq_true_eq]; rfl
      rcases Out.bind_eq_err.1 h with h | ⟨o, hs, h⟩
      · obtain ⟨hx, h'⟩ := scan_err hP h
        subst hx
        exact .literals hread (by simpa using h')
      · obtain ⟨rfl, h'⟩ := literalResult_err (Out.map_eq_err.1 h)
        rcases h' with ⟨hx, h'⟩ | ⟨hx, h'⟩ <;> subst hx
        · exact .noLiteral hread h'
        · exact .mismatch hread h' fun lit hlit hn => ((scan_ok hP hs).2.1 rfl).2 lit hlit (decide_eq_true hn)

theorem layout_err (hl : l.Closed) (hi : ∀ k, l.inputCount = some k → p.inputs.length = k) {n : Nat}
    (h : layout c rec n p.graph p.layout p.inputs l = .err x) : Explained c rec p x := by
  cases l with
  | never => cases h
  | always => cases h
  | unit l =>
    rcases Out.bind_eq_err.1 h with h | ⟨σ, -, h⟩
    · exact .inl (own_err hds hder hl (hi 1 rfl) h)
    · cases h
  | boolean l => exact .inl (data_err hds hder rfl rfl (by simp [Layout.described]) hl.1 (hi 1 rfl) h)
  | number l => exact .inl (data_err hds hder rfl rfl (by simp [Layout.described]) hl.1 (hi 1 rfl) h)
  | byteString l => exact .inl (data_err hds hder rfl rfl (by simp [Layout.described]) hl.1 (hi 1 rfl) h)
  | textString l => exact .inl (data_err hds hder rfl rfl (by simp [Layout.described]) hl.1 (hi 1 rfl) h)
  | id l =>
    rcases Out.bind_eq_err.1 h with h | ⟨σ, hσ, h⟩
    · exact .inl (own_err hds hder hl.1 (hi 1 rfl) h)
    obtain ⟨-, hm, -⟩ := own_ok hds (l := .id l) hl.1 (hi 1 rfl) hσ
    rcases Out.bind_eq_err.1 h with h | ⟨r, hr, h⟩
    · exact .inl (described_err hder hm (by simp [Layout.described]) h)
    have hden := ((resource_eq_ok c _ _ _).1 hr).2
    have h := Out.map_eq_err.1 h
    unfold idValue at h
    split at h
    · rename_i e; cases h; exact .inl (.noId hder hm hden e)
    · cases h
    · rename_i e; cases h; exact .inl (.ids hder hm hden (by rw [e]; simp))
  | sum l =>
    rcases Out.bind_eq_err.1 h with h | ⟨σ, hσ, h⟩
    · exact .inl (own_err hds hder hl.1 (hi _ rfl) h)
    obtain ⟨-, hm, hlen⟩ := own_ok hds (l := .sum l) hl.1 (hi _ rfl) hσ
    rcases variants_err hds (fun y hy => by rw [hlen]; exact (hl.2 y hy).1) h with
      ⟨v, hv, h⟩ | ⟨rfl, -, h⟩ | ⟨rfl, j, v, τ, hj, hmv, hr | ⟨k, w, τ', hk, hw, hmw⟩⟩
    · exact part_err (.variant hder hm hv) (by simp) h
    · exact .inl (.noVariant hder hm h)
    · exact absurd rfl hr
    · exact .inl (.variants hder hm hk hw hj hmw hmv)
  | product l =>
    rcases Out.bind_eq_err.1 h with h | ⟨σ, hσ, h⟩
    · exact .inl (own_err hds hder hl.1 (hi _ rfl) h)
    obtain ⟨-, hm, hlen⟩ := own_ok hds (l := .product l) hl.1 (hi _ rfl) hσ
    have hc : ∀ e ∈ l.fields, PatsBelow (σ.length + e.2.intro) e.2.dataset := fun y hy => by rw [hlen]; exact (hl.2 y hy).1
    rcases Out.bind_eq_err.1 h with h | ⟨os, hos, h⟩
    · obtain ⟨e, he, h⟩ := readFields_err hds hc h
      exact part_err (.field (key := e.1) (field := e.2) hder hm he) (by simp) h
    rcases Out.bind_eq_err.1 h with h | ⟨_, -, h⟩
    · obtain ⟨e, he, hreq, rfl, hno⟩ := (readFields_ok hds hc hos).2.1 h
      have hp := DsPart.field (key := e.1) (field := e.2) hder hm he
      rw [hreq] at hp
      exact .inl (.noField hp hno)
    · cases h
  | unordered l =>
    rcases Out.bind_eq_err.1 h with h | ⟨σ, hσ, h⟩
    · exact .inl (own_err hds hder hl.1 (hi _ rfl) h)
    obtain ⟨-, hm, hlen⟩ := own_ok hds (l := .unordered l) hl.1 (hi _ rfl) hσ
    rcases Out.bind_eq_err.1 h with h | ⟨ps, hps, h⟩
    · unfold patterns at h
      split at h
      · cases h
      · rename_i hk
        cases h
        obtain ⟨r, hr, hu⟩ := unknownIn_iff.2 hk
        exact .inl (.unknown (.part (.element hder hm) hr) hu)
    obtain ⟨-, rfl⟩ := (patterns_eq_ok c _ _).1 hps
    rcases Out.bind_eq_err.1 h with h | ⟨_, -, h⟩
    · obtain ⟨ms, -, h2, h3⟩ := exists_matchings c hds rec p.graph l.item σ
        (Hydrate.declared_ext (σ := σ) hl.2.1 (by rw [hlen]; rfl))
      rw [h3] at h
      obtain ⟨τ, hτ, h⟩ := Out.mapM'_eq_err h
      exact sub_err (.element hder hm) ((h2 τ).1 hτ) h
    · cases h
  | ordered l =>
    rcases Out.bind_eq_err.1 h with h | ⟨σ, hσ, h⟩
    · exact .inl (own_err hds hder hl.1 (hi _ rfl) h)
    obtain ⟨-, hm, hlen⟩ := own_ok hds (l := .ordered l) hl.1 (hi _ rfl) hσ
    rcases Out.bind_eq_err.1 h with h | ⟨head, hh, h⟩
    · exact .inl (described_err hder hm (by simp [Layout.described]) h)
    rcases Out.bind_eq_err.1 h with h | ⟨tail, ht, h⟩
    · exact .inl (described_err hder hm (by simp [Layout.described]) h)
    rcases Out.bind_eq_err.1 h with h | ⟨_, -, h⟩
    · obtain ⟨r, hr, h⟩ := nodes_err hds (by rw [hlen]; exact hl.2.2.2.1) h
      have hp := DsPart.node hder hm ((resource_eq_ok c _ _ _).1 hh).2 ((resource_eq_ok c _ _ _).1 ht).2 hr
      rcases h with h | ⟨hx, h'⟩
      · exact part_err hp (by simp) h
      · subst hx; exact .inl (.noNode hp h')
    · cases h
  | sized l =>
    rcases Out.bind_eq_err.1 h with h | ⟨σ, hσ, h⟩
    · exact .inl (own_err hds hder hl.1 (hi _ rfl) h)
    obtain ⟨-, hm, hlen⟩ := own_ok hds (l := .sized l) hl.1 (hi _ rfl) hσ
    rcases Out.bind_eq_err.1 h with h | ⟨_, -, h⟩
    · obtain ⟨e, he, h⟩ := sizedItems_err hds (fun y hy => by rw [hlen]; exact (hl.2 y hy).1) h
      have hp := DsPart.item hder hm he
      rcases h with h | ⟨hx, h'⟩
      · exact part_err hp (by simp) h
      · subst hx; exact .inl (.noItem hp h')
    · cases h

end Layout

/-! ## Derived types: success -/

/-- The part has to be there. -/
def needed : PartKind → Bool
  | .field _ required => required
  | .node => true
  | .item => true
  | _ => false

/-- The part is read. -/
structure Fine (c : DsCtx R) (rec : Rec R) (p : Place R) (kind : PartKind) (σ₀ : Subst R) (pats : List (QuadPat R)) (fmt : ValueFormat R) :
    Prop where
  known : ¬ UnknownIn c pats
  reads : ∀ τ, IsMatch c.ds σ₀ (inGraph p.graph pats) τ → ∃ v, subValue c rec p.graph fmt τ = .ok v
  once : kind ≠ .element → ¬ SeveralMatches c.ds σ₀ (inGraph p.graph pats)
  some : needed kind = true → ¬ NoMatch c.ds σ₀ (inGraph p.graph pats)

theorem PartOk.fine {kind : PartKind} {σ₀ : Subst R} {pats : List (QuadPat R)} {fmt : ValueFormat R} (h : PartOk c rec p.graph σ₀ pats fmt)
    (hn : needed kind = true → ¬ NoMatch c.ds σ₀ (inGraph p.graph pats)) : Fine c rec p kind σ₀ pats fmt := by
  refine ⟨h.1, fun τ hτ => ?_, fun _ hs => ?_, hn⟩
  · rcases h.2 with h | ⟨τ', hu, hv⟩
    · exact absurd hτ (h τ)
    · rw [hu.2 τ hτ]; exact hv
  · rcases h.2 with h | ⟨τ', hu, hv⟩
    · obtain ⟨a, b, ha, -⟩ := hs; exact h a ha
    · exact Hydrate.not_several hu hs

/-- What success says of a layout. -/
structure LayoutFine (c : DsCtx R) (rec : Rec R) (p : Place R) (l : Layout R) (σ : Subst R) : Prop where
  known : ¬ UnknownIn c l.own.2
  only : p.OnlyMatch c l σ
  described : ∀ r, .res r ∈ l.described → c.known r = true
  parts : ∀ kind σ₀ pats fmt, DsPart c p kind σ₀ pats fmt → Fine c rec p kind σ₀ pats fmt
  id : ∀ l' r, l = .id l' → l'.resource.Denotes σ.get r → ∃ i, c.irisOf r = [i]
  literal : ∀ d r, l.literalLayout = some d → d.resource.Denotes σ.get r →
    ((c.literalsOf r).filter fun lit => c.Readable p.layout d.datatype lit).length = 1
  variants : ∀ l', l = .sum l' → ∃ (k : Nat) (v : Variant R) (τ : Subst R), l'.variants[k]? = some v ∧
    IsMatch c.ds (σ ++ List.replicate v.intro none) (inGraph p.graph v.dataset) τ ∧
    ∀ j x τ, l'.variants[j]? = some x → IsMatch c.ds (σ ++ List.replicate x.intro none) (inGraph p.graph x.dataset) τ → j = k

theorem only_unique {l : Layout R} {σ τ : Subst R} (h : p.OnlyMatch c l σ) (h' : p.OnlyMatch c l τ) : τ = σ := h.2 _ h'.1

theorem derived_unique {l l' : Layout R} (h : p.Derived c l) (h' : p.Derived c l') : l' = l := by
  have := h'.2
  rw [h.2] at this
  exact (Option.some.inj this).symm

theorem resource_known {pat : Pattern R} {σ : Subst R} {r : R} (h : resource c pat σ = .ok r) {a : R} (ha : pat = .res a) :
    c.known a = true := by
  subst ha
  exact ((resource_eq_ok c _ _ _).1 h).1

theorem layout_fine (hds : c.ds.Nodup) {l : Layout R} (hder : p.Derived c l) (hl : l.Closed)
    (hi : ∀ k, l.inputCount = some k → p.inputs.length = k) {n : Nat} {v : TypedValue R}
    (h : layout c rec n p.graph p.layout p.inputs l = .ok v) : ∃ σ, LayoutFine c rec p l σ := by
  have noparts : ∀ kind σ₀ pats fmt, DsPart c p kind σ₀ pats fmt → l.formats = [] → False := by
    intro kind σ₀ pats fmt hp hf
    cases hp with
    | field h1 _ h2 =>
      obtain rfl := derived_unique hder h1
      simp only [Layout.formats, List.map_eq_nil_iff] at hf
      rw [hf] at h2; cases h2
    | variant h1 _ h2 =>
      obtain rfl := derived_unique hder h1
      simp only [Layout.formats, List.map_eq_nil_iff] at hf
      rw [hf] at h2; cases h2
    | element h1 _ => obtain rfl := derived_unique hder h1; simp [Layout.formats] at hf
    | node h1 _ _ _ _ => obtain rfl := derived_unique hder h1; simp [Layout.formats] at hf
    | item h1 _ h2 =>
      obtain rfl := derived_unique hder h1
      simp only [Layout.formats, List.map_eq_nil_iff] at hf
      rw [hf] at h2; cases h2
  have dataCase : ∀ d, l.literalLayout = some d → l.own = (d.intro, d.dataset) → l.described = [d.resource] → l.formats = [] →
      (∀ l', l ≠ .id l') → (∀ l', l ≠ .sum l') → PatsBelow (1 + d.intro) d.dataset → p.inputs.length = 1 →
      data c p.graph p.layout d p.inputs = .ok v → ∃ σ, LayoutFine c rec p l σ := by
    intro d hlit ho hdesc hf hid hsum hc hin h
    unfold data at h
    obtain ⟨σ, hσ, h⟩ := Out.bind_eq_ok.1 h
    obtain ⟨hk, hm, -⟩ := own_ok hds (l := l) (by rw [ho]; exact hc) hin (by rw [ho]; exact hσ)
    obtain ⟨r, hr, h⟩ := Out.bind_eq_ok.1 h
    obtain ⟨o, hs, h⟩ := Out.bind_eq_ok.1 h
    obtain ⟨a, ha⟩ := exists_of_map_ok h
    refine ⟨σ, hk, hm, ?_, fun kind σ₀ pats fmt hp => (noparts _ _ _ _ hp hf).elim, fun l' _ e => absurd e (hid l'), ?_,
      fun l' e => absurd e (hsum l')⟩
    · intro a ha
      rw [hdesc, List.mem_singleton] at ha
      exact resource_known hr ha.symm
    · intro d' r' hd' hr'
      rw [hlit, Option.some.injEq] at hd'
      subst hd'
      obtain rfl := Keeping.pattern_unique ((resource_eq_ok c _ _ _).1 hr).2 hr'
      have hP : ∀ lit : RdfLit, decide (c.Readable p.layout d.datatype lit) = true ↔
          literalType lit = c.datatypeIri d.datatype ∧ (c.fromLiteral p.layout lit.value).isSome = true := fun lit => by
        rw [decide_eq_true_eq]; rfl
      obtain ⟨h1, h2⟩ := scan_ok hP hs
      simp only [Option.isSome_none, Bool.false_eq_true, if_false, Nat.add_zero] at h1
      rw [literalResult_eq_ok] at ha
      subst ha
      have : List.filter (fun lit => decide (c.Readable p.layout d.datatype lit)) (c.literalsOf r) ≠ [] := by
        intro hnil
        cases h2.2 ⟨rfl, fun lit hlit hp => List.filter_eq_nil_iff.1 hnil lit hlit hp⟩
      have := List.length_pos_iff.2 this
      omega
  cases l with
  | never => cases h
  | always => cases h
  | unit l =>
    obtain ⟨σ, hσ, h⟩ := Out.bind_eq_ok.1 h
    obtain ⟨hk, hm, -⟩ := own_ok hds (l := .unit l) hl (hi 1 rfl) hσ
    exact ⟨σ, hk, hm, by simp [Layout.described], fun kind σ₀ pats fmt hp => (noparts _ _ _ _ hp rfl).elim, by simp,
      by simp [Layout.literalLayout], by simp⟩
  | boolean l => exact dataCase l rfl rfl rfl rfl (by simp) (by simp) hl.1 (hi 1 rfl) h
  | number l => exact dataCase l rfl rfl rfl rfl (by simp) (by simp) hl.1 (hi 1 rfl) h
  | byteString l => exact dataCase l rfl rfl rfl rfl (by simp) (by simp) hl.1 (hi 1 rfl) h
  | textString l => exact dataCase l.toDataLayout rfl rfl rfl rfl (by simp) (by simp) hl.1 (hi 1 rfl) h
  | id l =>
    obtain ⟨σ, hσ, h⟩ := Out.bind_eq_ok.1 h
    obtain ⟨hk, hm, -⟩ := own_ok hds (l := .id l) hl.1 (hi 1 rfl) hσ
    obtain ⟨r, hr, h⟩ := Out.bind_eq_ok.1 h
    obtain ⟨a, ha⟩ := exists_of_map_ok h
    refine ⟨σ, hk, hm, ?_, fun kind σ₀ pats fmt hp => (noparts _ _ _ _ hp rfl).elim, ?_, by simp [Layout.literalLayout], by simp⟩
    · intro a ha
      simp only [Layout.described, List.mem_singleton] at ha
      exact resource_known hr ha.symm
    · intro l' r' e hr'
      cases e
      obtain rfl := Keeping.pattern_unique ((resource_eq_ok c _ _ _).1 hr).2 hr'
      unfold idValue at ha
      split at ha
      · cases ha
      · rename_i i e; exact ⟨i, e⟩
      · cases ha
  | sum l =>
    obtain ⟨σ, hσ, h⟩ := Out.bind_eq_ok.1 h
    obtain ⟨hk, hm, hlen⟩ := own_ok hds (l := .sum l) hl.1 (hi _ rfl) hσ
    have hc : ∀ v ∈ l.variants, PatsBelow (σ.length + v.intro) v.dataset := fun y hy => by rw [hlen]; exact (hl.2 y hy).1
    refine ⟨σ, hk, hm, by simp [Layout.described], ?_, by simp, by simp [Layout.literalLayout], ?_⟩
    · intro kind σ₀ pats fmt hp
      cases hp with
      | field h1 _ _ => cases derived_unique hder h1
      | variant h1 h2 h3 =>
        cases derived_unique hder h1
        obtain rfl := only_unique hm h2
        exact (variants_parts hds hc h _ h3).fine (by simp [needed])
      | element h1 _ => cases derived_unique hder h1
      | node h1 _ _ _ _ => cases derived_unique hder h1
      | item h1 _ _ => cases derived_unique hder h1
    · intro l' e
      cases e
      rcases variants_ok c hds _ _ _ _ _ hc _ _ _ h with ⟨e, -⟩ | ⟨-, k, variant, w, h1, h2, h3, -⟩
      · cases e
      · obtain ⟨τ, hτ, -⟩ := h2
        exact ⟨k, variant, τ, h1, hτ.1, h3⟩
  | product l =>
    obtain ⟨σ, hσ, h⟩ := Out.bind_eq_ok.1 h
    obtain ⟨hk, hm, hlen⟩ := own_ok hds (l := .product l) hl.1 (hi _ rfl) hσ
    have hc : ∀ e ∈ l.fields, PatsBelow (σ.length + e.2.intro) e.2.dataset := fun y hy => by rw [hlen]; exact (hl.2 y hy).1
    obtain ⟨os, hos, h⟩ := Out.bind_eq_ok.1 h
    obtain ⟨m, hmm, h⟩ := Out.bind_eq_ok.1 h
    obtain ⟨h1, -, h3⟩ := readFields_ok (x := .missingData) hds hc hos
    refine ⟨σ, hk, hm, by simp [Layout.described], ?_, by simp, by simp [Layout.literalLayout], by simp⟩
    intro kind σ₀ pats fmt hp
    cases hp with
    | field g1 g2 g3 =>
      cases derived_unique hder g1
      obtain rfl := only_unique hm g2
      exact (h1 _ g3).fine fun hn => h3 m hmm _ g3 hn
    | variant h1 _ _ => cases derived_unique hder h1
    | element h1 _ => cases derived_unique hder h1
    | node h1 _ _ _ _ => cases derived_unique hder h1
    | item h1 _ _ => cases derived_unique hder h1
  | unordered l =>
    obtain ⟨σ, hσ, h⟩ := Out.bind_eq_ok.1 h
    obtain ⟨hk, hm, hlen⟩ := own_ok hds (l := .unordered l) hl.1 (hi _ rfl) hσ
    obtain ⟨ps, hps, h⟩ := Out.bind_eq_ok.1 h
    obtain ⟨hkn, rfl⟩ := (patterns_eq_ok c _ _).1 hps
    obtain ⟨vs, hvs, h⟩ := Out.bind_eq_ok.1 h
    obtain ⟨ms, -, h2, h3⟩ := exists_matchings c hds rec p.graph l.item σ
      (Hydrate.declared_ext (σ := σ) hl.2.1 (by rw [hlen]; rfl))
    rw [h3, Out.mapM'_eq_ok] at hvs
    refine ⟨σ, hk, hm, by simp [Layout.described], ?_, by simp, by simp [Layout.literalLayout], by simp⟩
    intro kind σ₀ pats fmt hp
    cases hp with
    | field h1 _ _ => cases derived_unique hder h1
    | variant h1 _ _ => cases derived_unique hder h1
    | element g1 g2 =>
      cases derived_unique hder g1
      obtain rfl := only_unique hm g2
      refine ⟨fun hn => unknownIn_iff.1 hn hkn, fun τ hτ => ?_, fun h => absurd rfl h, fun h => by cases h⟩
      obtain ⟨i, hi', he⟩ := List.getElem_of_mem ((h2 τ).2 hτ)
      have hb : i < vs.length := hvs.length_eq ▸ hi'
      have := List.Forall₂.get hvs hi' hb
      exact ⟨vs[i], by simpa [he] using this⟩
    | node h1 _ _ _ _ => cases derived_unique hder h1
    | item h1 _ _ => cases derived_unique hder h1
  | ordered l =>
    obtain ⟨σ, hσ, h⟩ := Out.bind_eq_ok.1 h
    obtain ⟨hk, hm, hlen⟩ := own_ok hds (l := .ordered l) hl.1 (hi _ rfl) hσ
    obtain ⟨head, hh, h⟩ := Out.bind_eq_ok.1 h
    obtain ⟨tail, ht, h⟩ := Out.bind_eq_ok.1 h
    obtain ⟨vs, hvs, h⟩ := Out.bind_eq_ok.1 h
    refine ⟨σ, hk, hm, ?_, ?_, by simp, by simp [Layout.literalLayout], by simp⟩
    · intro a ha
      simp only [Layout.described, List.mem_cons, List.not_mem_nil, or_false] at ha
      rcases ha with ha | ha
      · exact resource_known hh ha.symm
      · exact resource_known ht ha.symm
    intro kind σ₀ pats fmt hp
    cases hp with
    | field h1 _ _ => cases derived_unique hder h1
    | variant h1 _ _ => cases derived_unique hder h1
    | element h1 _ => cases derived_unique hder h1
    | node g1 g2 g3 g4 g5 =>
      cases derived_unique hder g1
      obtain rfl := only_unique hm g2
      obtain rfl := Keeping.pattern_unique ((resource_eq_ok c _ _ _).1 hh).2 g3
      obtain rfl := Keeping.pattern_unique ((resource_eq_ok c _ _ _).1 ht).2 g4
      obtain ⟨k1, k2⟩ := nodes_parts hds (by rw [hlen]; exact hl.2.2.2.1) hvs g5
      exact k1.fine fun _ => k2
    | item h1 _ _ => cases derived_unique hder h1
  | sized l =>
    obtain ⟨σ, hσ, h⟩ := Out.bind_eq_ok.1 h
    obtain ⟨hk, hm, hlen⟩ := own_ok hds (l := .sized l) hl.1 (hi _ rfl) hσ
    obtain ⟨vs, hvs, h⟩ := Out.bind_eq_ok.1 h
    have hc : ∀ e ∈ l.items, PatsBelow (σ.length + e.intro) e.dataset := fun y hy => by rw [hlen]; exact (hl.2 y hy).1
    refine ⟨σ, hk, hm, by simp [Layout.described], ?_, by simp, by simp [Layout.literalLayout], by simp⟩
    intro kind σ₀ pats fmt hp
    cases hp with
    | field h1 _ _ => cases derived_unique hder h1
    | variant h1 _ _ => cases derived_unique hder h1
    | element h1 _ => cases derived_unique hder h1
    | node h1 _ _ _ _ => cases derived_unique hder h1
    | item g1 g2 g3 =>
      cases derived_unique hder g1
      obtain rfl := only_unique hm g2
      obtain ⟨k1, k2⟩ := sizedItems_parts hds hc hvs _ g3
      exact k1.fine fun _ => k2

theorem LayoutFine.no_cause {l : Layout R} (hder : p.Derived c l) {σ : Subst R} (h : LayoutFine c rec p l σ) : ¬ DsCause c p x := by
  have sub_known : ∀ {fmt : ValueFormat R} {τ : Subst R} {v : TypedValue R}, subValue c rec p.graph fmt τ = .ok v → ¬ UnknownFormat c fmt :=
    fun hv hn => unknownFormat_iff.1 hn ((subValue_eq_ok c _ _ _ _ _).1 hv).1
  intro hc
  cases hc with
  | unknown hu hk =>
    cases hu with
    | own h1 h2 => cases derived_unique hder h1; exact h.known ⟨_, h2, hk⟩
    | described h1 _ h2 => cases derived_unique hder h1; rw [h.described _ h2] at hk; cases hk
    | part h1 h2 => exact (h.parts _ _ _ _ h1).known ⟨_, h2, hk⟩
    | input h1 h2 h3 =>
      obtain ⟨v, hv⟩ := (h.parts _ _ _ _ h1).reads _ h2
      exact sub_known hv ⟨_, .inl h3, hk⟩
    | graph h1 h2 h3 =>
      obtain ⟨v, hv⟩ := (h.parts _ _ _ _ h1).reads _ h2
      exact sub_known hv ⟨_, .inr h3, hk⟩
  | missing h1 h2 => cases derived_unique hder h1; exact h2 _ h.only.1
  | ambiguous h1 h2 => cases derived_unique hder h1; exact Hydrate.not_several h.only h2
  | noField h1 h2 => exact (h.parts _ _ _ _ h1).some rfl h2
  | noNode h1 h2 => exact (h.parts _ _ _ _ h1).some rfl h2
  | noItem h1 h2 => exact (h.parts _ _ _ _ h1).some rfl h2
  | several h1 h2 h3 => exact (h.parts _ _ _ _ h1).once h2 h3
  | noVariant h1 h2 h3 =>
    cases derived_unique hder h1
    obtain rfl := only_unique h.only h2
    obtain ⟨k, v, τ, hv, hm, -⟩ := h.variants _ rfl
    exact h3 v (List.mem_of_getElem? hv) τ hm
  | variants h1 h2 h3 h4 h5 h6 h7 =>
    cases derived_unique hder h1
    obtain rfl := only_unique h.only h2
    obtain ⟨k, v, τ, hv, hm, hu⟩ := h.variants _ rfl
    exact h3 ((hu _ _ _ h4 h6).trans (hu _ _ _ h5 h7).symm)
  | noId h1 h2 h3 h4 =>
    cases derived_unique hder h1
    obtain rfl := only_unique h.only h2
    obtain ⟨i, hi⟩ := h.id _ _ rfl h3
    rw [h4] at hi; cases hi
  | ids h1 h2 h3 h4 =>
    cases derived_unique hder h1
    obtain rfl := only_unique h.only h2
    obtain ⟨i, hi⟩ := h.id _ _ rfl h3
    rw [hi] at h4; simp at h4
  | noLiteral h1 h2 =>
    obtain ⟨l', σ', h1, h3, h4, h5⟩ := h1
    obtain rfl := derived_unique hder h1
    obtain rfl := only_unique h.only h4
    have := h.literal _ _ h3 h5
    rw [h2] at this; simp at this
  | mismatch h1 h2 h2' =>
    obtain ⟨l', σ', h1, h3, h4, h5⟩ := h1
    obtain rfl := derived_unique hder h1
    obtain rfl := only_unique h.only h4
    have := h.literal _ _ h3 h5
    rw [List.filter_eq_nil_iff.2 (fun lit hl hp => h2' lit hl (of_decide_eq_true hp))] at this
    simp at this
  | literals h1 h2 =>
    obtain ⟨l', σ', h1, h3, h4, h5⟩ := h1
    obtain rfl := derived_unique hder h1
    obtain rfl := only_unique h.only h4
    have := h.literal _ _ h3 h5
    omega
  | primNoId h1 _ _ _ => rw [hder.1] at h1; cases h1
  | primIds h1 _ _ => rw [hder.1] at h1; cases h1
  | primNoString h1 _ _ => rw [hder.1] at h1; cases h1
  | primNoLiteral h1 _ _ => rw [hder.1] at h1; cases h1
  | primMismatch h1 _ _ _ => rw [hder.1] at h1; cases h1
  | primInvalid h1 _ _ _ _ => rw [hder.1] at h1; cases h1
  | primLiterals h1 _ _ => rw [hder.1] at h1; cases h1

/-! ## All types -/

/-- The place has as many inputs as its layout expects. -/
def PlaceArity (c : DsCtx R) (p : Place R) : Prop := ∀ l k, c.reg p.layout = some l → l.inputCount = some k → p.inputs.length = k

theorem part_format {kind : PartKind} {σ₀ : Subst R} {pats : List (QuadPat R)} {fmt : ValueFormat R} (h : DsPart c p kind σ₀ pats fmt) :
    ∃ l, c.reg p.layout = some l ∧ fmt ∈ l.formats := by
  cases h with
  | field h1 _ h2 => exact ⟨_, h1.2, List.mem_map.2 ⟨_, h2, rfl⟩⟩
  | variant h1 _ h2 => exact ⟨_, h1.2, List.mem_map.2 ⟨_, h2, rfl⟩⟩
  | element h1 _ => exact ⟨_, h1.2, by simp [Layout.formats]⟩
  | node h1 _ _ _ _ => exact ⟨_, h1.2, by simp [Layout.formats]⟩
  | item h1 _ h2 => exact ⟨_, h1.2, List.mem_map.2 ⟨_, h2, rfl⟩⟩

theorem reads_arity (hwt : c.reg.WellTyped) {q : Place R} (h : p.DsReads c q) : PlaceArity c q := by
  obtain ⟨kind, σ₀, pats, fmt, τ, hp, -, hsub⟩ := h
  obtain ⟨l, hl, hf⟩ := part_format hp
  obtain ⟨l', hl', hc⟩ := hwt _ _ hl _ hf
  intro l'' k hl'' hk
  rw [hsub.2.2, hl', Option.some.injEq] at hl''
  subst hl''
  rw [← hsub.1.length_eq]
  exact hc k hk

theorem step_err (hreg : c.reg.Closed) (hds : c.ds.Nodup) (ha : PlaceArity c p) {n : Nat} (h : at_ (deserialize c (n + 1)) p = .err x) :
    Explained c (deserialize c n) p x := by
  unfold at_ deserialize at h
  split at h
  · rename_i k hk
    rcases Out.bind_eq_err.1 h with h | ⟨r, hr, h⟩
    · exact absurd h Out.ofOption_ne_err
    · have hr := Out.ofOption_eq_ok.1 hr
      obtain ⟨rest, hi⟩ : ∃ rest, p.inputs = r :: rest := by
        cases hp : p.inputs with
        | nil => rw [hp] at hr; cases hr
        | cons a rest => rw [hp] at hr; cases hr; exact ⟨rest, rfl⟩
      exact .inl (prim_err hk hi (Out.map_eq_err.1 h))
  · rename_i hk
    split at h
    · cases h
    · rename_i l hl
      exact layout_err hds ⟨hk, hl⟩ (hreg _ _ hl) (fun k hk => ha l k hl hk) h

theorem step_ok (hreg : c.reg.Closed) (hds : c.ds.Nodup) (ha : PlaceArity c p) {n : Nat} {v : TypedValue R}
    (h : at_ (deserialize c (n + 1)) p = .ok v) :
    (∀ x, ¬ DsCause c p x) ∧ ∀ q, p.DsReads c q → ∃ w, at_ (deserialize c n) q = .ok w := by
  unfold at_ deserialize at h
  split at h
  · rename_i k hk
    obtain ⟨r, hr, h⟩ := Out.bind_eq_ok.1 h
    have hr := Out.ofOption_eq_ok.1 hr
    obtain ⟨rest, hi⟩ : ∃ rest, p.inputs = r :: rest := by
      cases hp : p.inputs with
      | nil => rw [hp] at hr; cases hr
      | cons a rest => rw [hp] at hr; cases hr; exact ⟨rest, rfl⟩
    obtain ⟨t, ht⟩ := exists_of_map_ok h
    refine ⟨fun x => prim_fine hk hi ht, ?_⟩
    rintro q ⟨kind, σ₀, pats, fmt, τ, hp, -⟩
    have : ∃ l, p.Derived c l := by
      cases hp with
      | field h1 _ _ => exact ⟨_, h1⟩
      | variant h1 _ _ => exact ⟨_, h1⟩
      | element h1 _ => exact ⟨_, h1⟩
      | node h1 _ _ _ _ => exact ⟨_, h1⟩
      | item h1 _ _ => exact ⟨_, h1⟩
    obtain ⟨l, h1⟩ := this
    rw [h1.1] at hk; cases hk
  · rename_i hk
    split at h
    · cases h
    · rename_i l hl
      obtain ⟨σ, hf⟩ := layout_fine hds ⟨hk, hl⟩ (hreg _ _ hl) (fun k hk => ha l k hl hk) h
      refine ⟨fun x => hf.no_cause ⟨hk, hl⟩, ?_⟩
      rintro q ⟨kind, σ₀, pats, fmt, τ, hp, hm, hsub⟩
      obtain ⟨w, hw⟩ := (hf.parts _ _ _ _ hp).reads τ hm
      obtain ⟨-, ins, g', h1, h2, h3⟩ := (subValue_eq_ok c _ _ _ _ _).1 hw
      refine ⟨w, ?_⟩
      obtain ⟨qg, ql, qi⟩ := q
      obtain ⟨s1, s2, s3⟩ := hsub
      simp only at s1 s2 s3
      obtain rfl := Keeping.inputs_unique h1 s1
      obtain rfl := Keeping.graph_unique h2 s2
      subst s3
      exact h3

theorem err_cause (hreg : c.reg.Closed) (hwt : c.reg.WellTyped) (hds : c.ds.Nodup) (ha : PlaceArity c p) {n : Nat}
    (h : at_ (deserialize c n) p = .err x) : ∃ q, Relation.ReflTransGen (Place.DsReads c) p q ∧ DsCause c q x := by
  induction n generalizing p with
  | zero => cases h
  | succ n ih =>
    rcases step_err hreg hds ha h with h | ⟨q, hq, h⟩
    · exact ⟨p, .refl, h⟩
    · obtain ⟨q', hq', hc⟩ := ih (reads_arity hwt hq) h
      exact ⟨q', .head hq hq', hc⟩

theorem ok_no_cause (hreg : c.reg.Closed) (hwt : c.reg.WellTyped) (hds : c.ds.Nodup) (ha : PlaceArity c p) {n : Nat} {v : TypedValue R}
    (h : at_ (deserialize c n) p = .ok v) {q : Place R} (hq : Relation.ReflTransGen (Place.DsReads c) p q) : ¬ DsCause c q x := by
  induction hq using Relation.ReflTransGen.head_induction_on generalizing n v with
  | refl =>
    cases n with
    | zero => cases h
    | succ n => exact (step_ok hreg hds ha h).1 x
  | head h1 h2 ih =>
    cases n with
    | zero => cases h
    | succ n =>
      obtain ⟨w, hw⟩ := (step_ok hreg hds ha h).2 _ h1
      exact ih (reads_arity hwt h1) hw

end Verif.Derived
