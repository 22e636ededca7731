import Verif.HydrateCorrect

/-! # Hydration: fuel monotonicity, annotations, dependence on the dataset -/

set_option linter.unusedSectionVars false
set_option linter.unusedSimpArgs false

namespace Verif

/-- Flat order on outcomes: running longer can only replace `fuel` by another outcome. -/
def Out.Le {ε α} (x y : Out ε α) : Prop := x = .fuel ∨ x = y

namespace Out.Le

variable {ε α β : Type _}

theorem refl (x : Out ε α) : x.Le x := .inr rfl

theorem trans {x y z : Out ε α} (h : x.Le y) (h' : y.Le z) : x.Le z := by
  rcases h with rfl | rfl
  · exact .inl rfl
  · exact h'

theorem bind {x y : Out ε α} {f g : α → Out ε β} (h : x.Le y) (h' : ∀ a, (f a).Le (g a)) :
    (x.bind f).Le (y.bind g) := by
  rcases h with rfl | rfl
  · exact .inl rfl
  · cases x with
    | ok a => exact h' a
    | err e => exact .inr rfl
    | panic => exact .inr rfl
    | fuel => exact .inr rfl

theorem map {x y : Out ε α} (f : α → β) (h : x.Le y) : (x.map f).Le (y.map f) := by
  rcases h with rfl | rfl
  · exact .inl rfl
  · exact .inr rfl

theorem eq_of_ne {x y : Out ε α} (h : x.Le y) (hx : x ≠ .fuel) : y = x := by
  rcases h with h | h
  · exact absurd h hx
  · exact h.symm

end Out.Le

namespace Hydrate

variable {R : Type _} [DecidableEq R] (c : HyCtx R)

section mono
variable {rec rec' : Rec R} (h : ∀ g r i, (rec g r i).Le (rec' g r i))
include h

theorem subValue_mono (g : Option R) (fmt : ValueFormat R) (σ : Subst R) :
    (subValue rec g fmt σ).Le (subValue rec' g fmt σ) :=
  (Out.Le.refl _).bind fun _ => (Out.Le.refl _).bind fun _ => h _ _ _

theorem variants_mono (g : Option R) (ref : R) (σ : Subst R) (vs : List (Variant R)) (i : Nat)
    (sel : Option (Nat × TypedValue R)) :
    (variants c rec g ref σ i vs sel).Le (variants c rec' g ref σ i vs sel) := by
  induction vs generalizing i sel with
  | nil => rcases sel with _ | ⟨j, w⟩ <;> exact .refl _
  | cons x vs ih =>
    unfold variants
    refine (Out.Le.refl _).bind fun o => ?_
    cases o with
    | none => exact ih _ _
    | some σ' =>
      simp only
      rcases subValue_mono h g x.value σ' with e | e
      · simp only [e]; exact .inl rfl
      · rw [← e]
        cases subValue rec g x.value σ' with
        | ok v =>
          cases sel with
          | none => exact ih _ _
          | some _ => exact .refl _
        | err _ => exact ih _ _
        | panic => exact .refl _
        | fuel => exact .refl _

theorem fields_mono (g : Option R) (ref : R) (σ : Subst R) (fs : List (Value × Field R)) :
    (fields c rec g ref σ fs).Le (fields c rec' g ref σ fs) := by
  induction fs with
  | nil => exact .refl _
  | cons e fs ih =>
    obtain ⟨k, f⟩ := e
    unfold fields
    refine (Out.Le.refl _).bind fun o => ?_
    cases o with
    | none =>
      simp only
      split
      · exact .refl _
      · exact ih
    | some σ' => exact (subValue_mono h g _ _).bind fun v => ih.bind fun _ => .refl _

theorem nodes_mono (g : Option R) (ref : R) (node : ItemLayout R) (σ : Subst R) (tail : R) (n m : Nat) (hnm : n ≤ m)
    (head : R) : (nodes c rec g ref node σ tail n head).Le (nodes c rec' g ref node σ tail m head) := by
  induction n generalizing m head with
  | zero =>
    unfold nodes
    split
    · exact .refl _
    · exact .inl rfl
  | succ n ih =>
    obtain ⟨m, rfl⟩ : ∃ k, m = k + 1 := ⟨m - 1, by omega⟩
    unfold nodes
    split
    · exact .refl _
    · exact (Out.Le.refl _).bind fun _ => (subValue_mono h g _ _).bind fun _ => (Out.Le.refl _).bind fun _ =>
        (ih m (by omega) _).bind fun _ => .refl _

theorem sizedItems_mono (g : Option R) (ref : R) (σ : Subst R) (items : List (ItemLayout R)) (i : Nat) :
    (sizedItems c rec g ref σ i items).Le (sizedItems c rec' g ref σ i items) := by
  induction items generalizing i with
  | nil => exact .refl _
  | cons x items ih =>
    unfold sizedItems
    exact (Out.Le.refl _).bind fun _ => (subValue_mono h g _ _).bind fun _ => (ih _).bind fun _ => .refl _

theorem unorderedItems_mono (g : Option R) (fmt : ValueFormat R) (n : Nat) (st : Matching.Stack R) :
    (unorderedItems c rec g fmt n st).Le (unorderedItems c rec' g fmt n st) := by
  induction n generalizing st with
  | zero => exact .refl _
  | succ n ih =>
    unfold unorderedItems
    refine (Out.Le.refl _).bind fun o => ?_
    cases o with
    | none => exact .refl _
    | some p => exact (subValue_mono h g _ _).bind fun _ => (ih _).bind fun _ => .refl _

theorem layout_mono (n m : Nat) (hnm : n ≤ m) (g : Option R) (ref : R) (inputs : List R) (l : Layout R) :
    (layout c rec n g ref inputs l).Le (layout c rec' m g ref inputs l) := by
  cases l with
  | sum l => exact (Out.Le.refl _).bind fun _ => variants_mono c h _ _ _ _ _ _
  | product l => exact (Out.Le.refl _).bind fun _ => (fields_mono c h _ _ _ _).bind fun _ => .refl _
  | unordered l => exact (Out.Le.refl _).bind fun _ => (unorderedItems_mono c h _ _ _ _).bind fun _ => .refl _
  | ordered l =>
    exact (Out.Le.refl _).bind fun _ => (Out.Le.refl _).bind fun _ => (Out.Le.refl _).bind fun _ =>
      (nodes_mono c h _ _ _ _ _ _ _ hnm _).bind fun _ => .refl _
  | sized l => exact (Out.Le.refl _).bind fun _ => (sizedItems_mono c h _ _ _ _ _).bind fun _ => .refl _
  | _ => exact .refl _

end mono

theorem hydrate_mono (n m : Nat) (hnm : n ≤ m) (g : Option R) (ref : R) (inputs : List R) :
    (hydrate c n g ref inputs).Le (hydrate c m g ref inputs) := by
  induction n generalizing m g ref inputs with
  | zero => exact .inl rfl
  | succ n ih =>
    obtain ⟨m, rfl⟩ : ∃ k, m = k + 1 := ⟨m - 1, by omega⟩
    unfold hydrate
    split
    · exact .refl _
    · split
      · exact .refl _
      · exact layout_mono c (fun g r i => ih m (by omega) g r i) n m (by omega) g ref inputs _

/-! ## Annotations -/

section annot
variable {rec : Rec R} {A : R → TypedValue R → Prop} (h : ∀ g r i v, rec g r i = .ok v → A r v)
include h

theorem subValue_ok {g : Option R} {fmt : ValueFormat R} {σ : Subst R} {v : TypedValue R}
    (e : subValue rec g fmt σ = .ok v) : A fmt.layout v := by
  simp only [subValue, Out.bind_eq_ok] at e
  obtain ⟨_, _, _, _, e⟩ := e
  exact h _ _ _ _ e

theorem variants_ok {g : Option R} {ref : R} {σ : Subst R} {vs : List (Variant R)} {i : Nat}
    {sel : Option (Nat × TypedValue R)} {v : TypedValue R} (e : variants c rec g ref σ i vs sel = .ok v) :
    (∃ j w, sel = some (j, w) ∧ v = .variant w ref j) ∨
    ∃ k variant w, vs[k]? = some variant ∧ A variant.value.layout w ∧ v = .variant w ref (i + k) := by
  induction vs generalizing i sel with
  | nil =>
    rcases sel with _ | ⟨j, w⟩
    · simp [variants] at e
    · simp only [variants, Out.ok.injEq] at e
      exact .inl ⟨j, w, rfl, e.symm⟩
  | cons x vs ih =>
    have shift : ∀ {sel'}, variants c rec g ref σ (i + 1) vs sel' = .ok v →
        (∃ j w, sel' = some (j, w) ∧ v = .variant w ref j) ∨
        ∃ k variant w, (x :: vs)[k]? = some variant ∧ A variant.value.layout w ∧ v = .variant w ref (i + k) := by
      intro sel' e
      rcases ih e with h | ⟨k, variant, w, h1, h2, rfl⟩
      · exact .inl h
      · exact .inr ⟨k + 1, variant, w, by simpa using h1, h2, by rw [Nat.add_right_comm, Nat.add_assoc]⟩
    unfold variants at e
    rw [Out.bind_eq_ok] at e
    obtain ⟨o, -, e⟩ := e
    cases o with
    | none => exact shift e
    | some σ' =>
      simp only at e
      cases hs : subValue rec g x.value σ' with
      | ok w =>
        rw [hs] at e
        cases sel with
        | some _ => simp at e
        | none =>
          rcases shift e with ⟨j, w', h1, h2⟩ | h'
          · simp only [Option.some.injEq, Prod.mk.injEq] at h1
            obtain ⟨rfl, rfl⟩ := h1
            exact .inr ⟨0, x, w, rfl, subValue_ok h hs, h2⟩
          · exact .inr h'
      | err _ => rw [hs] at e; exact shift e
      | panic => rw [hs] at e; simp at e
      | fuel => rw [hs] at e; simp at e

theorem fields_ok {g : Option R} {ref : R} {σ : Subst R} {fs : List (Value × Field R)}
    {m : List (Value × TypedValue R)} (e : fields c rec g ref σ fs = .ok m) :
    (∀ k v, (k, v) ∈ m → ∃ f, (k, f) ∈ fs ∧ A f.value.layout v) ∧
    (∀ k f, (k, f) ∈ fs → f.required = true → ∃ v, (k, v) ∈ m) := by
  induction fs generalizing m with
  | nil => simp [fields] at e; subst e; simp
  | cons x fs ih =>
    obtain ⟨k, f⟩ := x
    unfold fields at e
    rw [Out.bind_eq_ok] at e
    obtain ⟨o, -, e⟩ := e
    cases o with
    | none =>
      simp only at e
      split at e
      · simp at e
      · rename_i hr
        obtain ⟨h1, h2⟩ := ih e
        refine ⟨fun k v hm => ?_, fun k' f' hm hreq => ?_⟩
        · obtain ⟨f, hf, ha⟩ := h1 k v hm
          exact ⟨f, by simp [hf], ha⟩
        · simp only [List.mem_cons, Prod.mk.injEq] at hm
          rcases hm with ⟨rfl, rfl⟩ | hm
          · exact absurd hreq hr
          · exact h2 k' f' hm hreq
    | some σ' =>
      simp only [Out.bind_eq_ok, Out.ok.injEq] at e
      obtain ⟨v, hv, m', hm', rfl⟩ := e
      obtain ⟨h1, h2⟩ := ih hm'
      refine ⟨fun k' v' hm => ?_, fun k' f' hm hreq => ?_⟩
      · simp only [List.mem_cons, Prod.mk.injEq] at hm
        rcases hm with ⟨rfl, rfl⟩ | hm
        · exact ⟨f, by simp, subValue_ok h hv⟩
        · obtain ⟨f, hf, ha⟩ := h1 k' v' hm
          exact ⟨f, by simp [hf], ha⟩
      · simp only [List.mem_cons, Prod.mk.injEq] at hm
        rcases hm with ⟨rfl, rfl⟩ | hm
        · exact ⟨v, by simp⟩
        · obtain ⟨v', hv'⟩ := h2 k' f' hm hreq
          exact ⟨v', by simp [hv']⟩

theorem nodes_ok {g : Option R} {ref : R} {node : ItemLayout R} {σ : Subst R} {tail : R} {n : Nat} {head : R}
    {vs : List (TypedValue R)} (e : nodes c rec g ref node σ tail n head = .ok vs) :
    ∀ v ∈ vs, A node.value.layout v := by
  induction n generalizing head vs with
  | zero =>
    unfold nodes at e
    split at e
    · simp at e; subst e; simp
    · simp at e
  | succ n ih =>
    unfold nodes at e
    split at e
    · simp at e; subst e; simp
    · simp only [Out.bind_eq_ok, Out.ok.injEq] at e
      obtain ⟨σ', -, v, hv, head', -, vs', hvs', rfl⟩ := e
      simp only [List.forall_mem_cons]
      exact ⟨subValue_ok h hv, ih hvs'⟩

theorem sizedItems_ok {g : Option R} {ref : R} {σ : Subst R} {items : List (ItemLayout R)} {i : Nat}
    {vs : List (TypedValue R)} (e : sizedItems c rec g ref σ i items = .ok vs) :
    vs.length = items.length ∧ ∀ x ∈ items.zip vs, A x.1.value.layout x.2 := by
  induction items generalizing i vs with
  | nil => simp [sizedItems] at e; subst e; simp
  | cons x items ih =>
    simp only [sizedItems, Out.bind_eq_ok, Out.ok.injEq] at e
    obtain ⟨σ', -, v, hv, vs', hvs', rfl⟩ := e
    obtain ⟨h1, h2⟩ := ih hvs'
    refine ⟨by simp [h1], ?_⟩
    simp only [List.zip_cons_cons, List.forall_mem_cons]
    exact ⟨subValue_ok h hv, h2⟩

theorem unorderedItems_ok {g : Option R} {fmt : ValueFormat R} {n : Nat} {st : Matching.Stack R}
    {vs : List (TypedValue R)} (e : unorderedItems c rec g fmt n st = .ok vs) : ∀ v ∈ vs, A fmt.layout v := by
  induction n generalizing st vs with
  | zero => simp [unorderedItems] at e
  | succ n ih =>
    unfold unorderedItems at e
    rw [Out.bind_eq_ok] at e
    obtain ⟨o, -, e⟩ := e
    cases o with
    | none => simp at e; subst e; simp
    | some p =>
      simp only [Out.bind_eq_ok, Out.ok.injEq] at e
      obtain ⟨v, hv, vs', hvs', rfl⟩ := e
      simp only [List.forall_mem_cons]
      exact ⟨subValue_ok h hv, ih hvs'⟩

end annot

theorem map_literal_ok {x : Out (HyError R) (TypedLiteral R)} {v : TypedValue R}
    (h : x.map TypedValue.literal = .ok v) : ∃ l, x = .ok l ∧ v = .literal l := by
  cases x <;> simp [Out.map] at h
  exact ⟨_, rfl, h.symm⟩

theorem hydrateData_ok {α} {g : Option R} {ref : R} {l : DataLayout R} {inputs : List R}
    {parse : String → String → Out (HyError R) α} {mk : α → TypedLiteral R} {t : TypedLiteral R}
    (h : hydrateData c g ref l inputs parse mk = .ok t) : ∃ a, t = mk a := by
  simp only [hydrateData, Out.bind_eq_ok] at h
  obtain ⟨_, _, _, _, o, _, h⟩ := h
  cases o with
  | none => simp at h
  | some a => simp only [Out.ok.injEq] at h; exact ⟨a, h.symm⟩

theorem hydrate_annotated (isIri : String → Bool) (hiri : ∀ r, ∀ i ∈ c.irisOf r, isIri i = true)
    (hkeys : c.reg.DistinctKeys) (n : Nat) (g : Option R) (ref : R) (inputs : List R) (v : TypedValue R)
    (e : hydrate c n g ref inputs = .ok v) : Annotated c.reg isIri ref v := by
  induction n generalizing g ref inputs v with
  | zero => simp [hydrate] at e
  | succ n ih =>
    unfold hydrate at e
    split at e
    · simp at e
    · rename_i l hl
      split at e
      · simp at e
      · cases l with
        | never => simp [layout] at e
        | always => simp [layout] at e; subst e; exact .always _ hl
        | unit l =>
          simp only [layout, Out.bind_eq_ok, Out.ok.injEq] at e
          obtain ⟨_, _, rfl⟩ := e
          exact .unit hl
        | boolean l =>
          obtain ⟨t, ht, rfl⟩ := map_literal_ok e
          obtain ⟨b, rfl⟩ := hydrateData_ok c ht
          exact .boolean b hl
        | number l =>
          obtain ⟨t, ht, rfl⟩ := map_literal_ok e
          obtain ⟨b, rfl⟩ := hydrateData_ok c ht
          exact .number b hl
        | byteString l =>
          obtain ⟨t, ht, rfl⟩ := map_literal_ok e
          obtain ⟨b, rfl⟩ := hydrateData_ok c ht
          exact .byteString b hl
        | textString l =>
          obtain ⟨t, ht, rfl⟩ := map_literal_ok e
          obtain ⟨b, rfl⟩ := hydrateData_ok c ht
          exact .textString b hl
        | id l =>
          obtain ⟨t, ht, rfl⟩ := map_literal_ok e
          simp only [hydrateId, Out.bind_eq_ok] at ht
          obtain ⟨_, _, r, _, ht⟩ := ht
          split at ht
          · rename_i iri hiri'
            simp only [Out.ok.injEq] at ht
            subst ht
            exact .id iri hl (hiri r iri (by rw [hiri']; simp))
          · simp at ht
        | sum l =>
          simp only [layout, Out.bind_eq_ok] at e
          obtain ⟨σ, _, e⟩ := e
          rcases variants_ok c (A := Annotated c.reg isIri) (fun g r i v => ih g r i v) e with
            ⟨_, _, h, _⟩ | ⟨k, variant, w, h1, h2, rfl⟩
          · simp at h
          · exact .sum variant w _ hl (by simpa using h1) h2
        | product l =>
          simp only [layout, Out.bind_eq_ok, Out.ok.injEq] at e
          obtain ⟨σ, _, m, hm, rfl⟩ := e
          obtain ⟨h1, h2⟩ := fields_ok c (A := Annotated c.reg isIri) (fun g r i v => ih g r i v) hm
          refine .product m hl (fun k v hkv => ?_) (fun k v f hkv hf => ?_) h2
          · obtain ⟨f, hf, -⟩ := h1 k v hkv; exact ⟨f, hf⟩
          · obtain ⟨f', hf', ha⟩ := h1 k v hkv
            have hn := hkeys ref l hl
            have : f = f' := by
              have := List.inj_on_of_nodup_map hn hf hf' rfl
              simpa using this
            subst this
            exact ha
        | unordered l =>
          simp only [layout, Out.bind_eq_ok, Out.ok.injEq] at e
          obtain ⟨σ, _, items, hi, rfl⟩ := e
          have := unorderedItems_ok c (A := Annotated c.reg isIri) (fun g r i v => ih g r i v) hi
          exact .unordered _ hl (fun v hv => this v ((sortBy_perm _ _).mem_iff.1 hv))
        | ordered l =>
          simp only [layout, Out.bind_eq_ok, Out.ok.injEq] at e
          obtain ⟨σ, _, head, _, tail, _, items, hi, rfl⟩ := e
          exact .ordered _ hl (nodes_ok c (A := Annotated c.reg isIri) (fun g r i v => ih g r i v) hi)
        | sized l =>
          simp only [layout, Out.bind_eq_ok, Out.ok.injEq] at e
          obtain ⟨σ, _, items, hi, rfl⟩ := e
          obtain ⟨h1, h2⟩ := sizedItems_ok c (A := Annotated c.reg isIri) (fun g r i v => ih g r i v) hi
          exact .sized _ hl h1 h2

end Hydrate

theorem Annotated.conforms {R : Type _} {reg : Registry R} {isIri : String → Bool} {ref : R} {v : TypedValue R}
    (h : Annotated reg isIri ref v) : Conforms reg isIri ref v.untype := by
  induction h with
  | unit h => exact .unit h
  | boolean b h => exact .boolean b h
  | number b h => exact .number b h
  | byteString b h => exact .byteString b h
  | textString b h => exact .textString b h
  | id s h hi => exact .id s h hi
  | @product ref l m hl h1 _ h3 ih =>
    simp only [TypedValue.untype, TypedValue.untypeMap_eq]
    refine .product _ hl (fun k v hm => ?_) (fun k v f hm hf => ?_) (fun k f hf hr => ?_)
    · simp only [List.mem_map, Prod.mk.injEq, Prod.exists] at hm
      obtain ⟨k', v', hm, rfl, rfl⟩ := hm
      exact h1 k' v' hm
    · simp only [List.mem_map, Prod.mk.injEq, Prod.exists] at hm
      obtain ⟨k', v', hm, rfl, rfl⟩ := hm
      exact ih k' v' f hm hf
    · obtain ⟨v, hv⟩ := h3 k f hf hr
      exact ⟨v.untype, List.mem_map.2 ⟨(k, v), hv, rfl⟩⟩
  | unordered vs hl _ ih =>
    simp only [TypedValue.untype, TypedValue.untypeList_eq]
    refine .unordered _ hl (fun v hv => ?_)
    obtain ⟨w, hw, rfl⟩ := List.mem_map.1 hv
    exact ih w hw
  | ordered vs hl _ ih =>
    simp only [TypedValue.untype, TypedValue.untypeList_eq]
    refine .ordered _ hl (fun v hv => ?_)
    obtain ⟨w, hw, rfl⟩ := List.mem_map.1 hv
    exact ih w hw
  | sized vs hl hlen _ ih =>
    simp only [TypedValue.untype, TypedValue.untypeList_eq]
    refine .sized _ hl (by simpa using hlen) (fun e he => ?_)
    rw [List.zip_map_right] at he
    obtain ⟨⟨i, w⟩, hw, rfl⟩ := List.mem_map.1 he
    exact ih (i, w) hw
  | sum variant v i hl hv _ ih =>
    exact .sum variant _ hl (List.mem_of_getElem? hv) ih
  | always v h => exact .always v h

/-! ## The meaning depends on the dataset as a set -/

section congr
variable {R : Type _} [DecidableEq R]

theorem isMatch_congr {ds ds' : List (Quad R)} (h : ∀ q, q ∈ ds ↔ q ∈ ds') (σ pats τ) :
    IsMatch ds σ pats τ ↔ IsMatch ds' σ pats τ :=
  ⟨fun m => ⟨m.length_eq, m.keeps, fun p hp => by
      obtain ⟨q, hq, hd⟩ := m.sat p hp; exact ⟨q, (h q).1 hq, hd⟩, m.minimal⟩,
   fun m => ⟨m.length_eq, m.keeps, fun p hp => by
      obtain ⟨q, hq, hd⟩ := m.sat p hp; exact ⟨q, (h q).2 hq, hd⟩, m.minimal⟩⟩

theorem uniqueMatch_congr {ds ds' : List (Quad R)} (h : ∀ q, q ∈ ds ↔ q ∈ ds') (σ pats τ) :
    UniqueMatch ds σ pats τ ↔ UniqueMatch ds' σ pats τ := by
  simp only [UniqueMatch, isMatch_congr h]

theorem subMeaning_mono {M M' : Option R → R → List R → TypedValue R → Prop}
    (hM : ∀ g r i v, M g r i v → M' g r i v) {g fmt σ v} (h : SubMeaning M g fmt σ v) : SubMeaning M' g fmt σ v := by
  obtain ⟨ins, g', h1, h2, h3⟩ := h
  exact ⟨ins, g', h1, h2, hM _ _ _ _ h3⟩

theorem chainMeaning_mono {ds ds' : List (Quad R)} (h : ∀ q, q ∈ ds ↔ q ∈ ds')
    {M M' : Option R → R → List R → TypedValue R → Prop} (hM : ∀ g r i v, M g r i v → M' g r i v)
    {g node σ tail head vs} (hc : ChainMeaning ds M g node σ tail head vs) :
    ChainMeaning ds' M' g node σ tail head vs := by
  induction hc with
  | nil => exact .nil
  | cons h1 h2 h3 h4 _ ih => exact .cons h1 ((uniqueMatch_congr h _ _ _).1 h2) (subMeaning_mono hM h3) h4 ih

theorem fieldsMeaning_mono {ds ds' : List (Quad R)} (h : ∀ q, q ∈ ds ↔ q ∈ ds')
    {M M' : Option R → R → List R → TypedValue R → Prop} (hM : ∀ g r i v, M g r i v → M' g r i v)
    {g σ fs m} (hc : FieldsMeaning ds M g σ fs m) : FieldsMeaning ds' M' g σ fs m := by
  induction hc with
  | nil => exact .nil
  | present h1 h2 _ ih => exact .present ((uniqueMatch_congr h _ _ _).1 h1) (subMeaning_mono hM h2) ih
  | absent h1 h2 _ ih => exact .absent (fun τ hm => h1 τ ((isMatch_congr h _ _ _).2 hm)) h2 ih

theorem layoutMeaning_congr {c : HyCtx R} {ds' : List (Quad R)} (h : ∀ q, q ∈ c.ds ↔ q ∈ ds')
    {M M' : Option R → R → List R → TypedValue R → Prop} (hM : ∀ g r i v, M g r i v ↔ M' g r i v)
    (g ref inputs v l) :
    LayoutMeaning c M g ref inputs v l ↔ LayoutMeaning { c with ds := ds' } M' g ref inputs v l := by
  have hu := uniqueMatch_congr h
  have hm := isMatch_congr h
  have hMM : M = M' := by
    funext g r i v; exact propext (hM g r i v)
  subst hMM
  cases l with
  | product l =>
    simp only [LayoutMeaning, hu]
    refine exists_congr fun σ => exists_congr fun m => and_congr Iff.rfl (and_congr ?_ Iff.rfl)
    exact ⟨fieldsMeaning_mono h (fun _ _ _ _ h => h), fieldsMeaning_mono (fun q => (h q).symm) (fun _ _ _ _ h => h)⟩
  | ordered l =>
    simp only [LayoutMeaning, hu]
    refine exists_congr fun σ => exists_congr fun _ => exists_congr fun _ => exists_congr fun _ =>
      and_congr Iff.rfl (and_congr Iff.rfl (and_congr Iff.rfl (and_congr ?_ Iff.rfl)))
    exact ⟨chainMeaning_mono h (fun _ _ _ _ h => h), chainMeaning_mono (fun q => (h q).symm) (fun _ _ _ _ h => h)⟩
  | _ => simp only [LayoutMeaning, DataMeaning, VariantMeaning, hu, hm]; try rfl

theorem meaning_congr {c : HyCtx R} {ds' : List (Quad R)} (h : ∀ q, q ∈ c.ds ↔ q ∈ ds') (n g ref inputs v) :
    Meaning c n g ref inputs v ↔ Meaning { c with ds := ds' } n g ref inputs v := by
  induction n generalizing g ref inputs v with
  | zero => rfl
  | succ n ih =>
    simp only [Meaning]
    exact exists_congr fun l => and_congr Iff.rfl (and_congr Iff.rfl (layoutMeaning_congr h ih _ _ _ _ _))

end congr

end Verif
