import Verif.DeErrorSpec
import Verif.DePanicSites

/-! # What the errors of dehydration say is true -/

set_option linter.unusedSectionVars false
set_option linter.unusedSimpArgs false

namespace Verif

theorem DePlace.Has.unique {c : DeCtx} {p : DePlace} {l l' : Layout Term} (h : p.Has c l) (h' : p.Has c l') : l = l' :=
  Option.some.inj (h.1.symm.trans h'.1)

mutual

theorem DeAccepts.not_fails {c : DeCtx} {p : DePlace} : DeAccepts c p → ∀ e, ¬ DeFails c p e
  | .plain h hs hm hk hsub, e, hf => by
    cases hf with
    | notFound h' => rw [h.1] at h'; cases h'
    | inputs h' hi hn => rw [h.1] at h'; cases h'; exact hn (h.2 _ hi)
    | misfit h' hm' => cases h.unique h'; exact hm hm'
    | required h' hk' => cases h.unique h'; exact hk _ _ hk'
    | noVariant err h' => exact hs _ (h.unique h')
    | ambiguous h' => exact hs _ (h.unique h')
    | component h' hs' hsub' hf => cases h.unique h'; exact (hsub _ _ hsub').not_fails _ hf
  | .sum i err h hx ha hf', e, hf => by
    cases hf with
    | notFound h' => rw [h.1] at h'; cases h'
    | inputs h' hi hn => rw [h.1] at h'; cases h'; exact hn (h.2 _ hi)
    | misfit h' hm' =>
      cases h.unique h'
      cases hm' with
      | kind hm => exact hm
    | required h' hk' => cases h.unique h'; cases hk'
    | noVariant err h' hn => cases h.unique h'; exact ha.not_fails _ (hn _ (List.mem_of_getElem? hx))
    | @ambiguous _ l' i' j' x y h' hij hi hj hax hay =>
      cases h.unique h'
      by_cases hne : i' = i
      · exact (hf' j' _ hj (by omega)).not_accepts hay
      · exact (hf' i' _ hi hne).not_accepts hax
    | component h' hs' => exact hs' _ (h'.unique h)

theorem DeFails.not_accepts {c : DeCtx} {p : DePlace} {e : DeError} : DeFails c p e → ¬ DeAccepts c p
  | .notFound h, ha => by cases ha with
    | plain h' => rw [h'.1] at h; cases h
    | sum i err h' => rw [h'.1] at h; cases h
  | .inputs h hi hn, ha => by cases ha with
    | plain h' => rw [h'.1] at h; cases h; exact hn (h'.2 _ hi)
    | sum i err h' => rw [h'.1] at h; cases h; exact hn (h'.2 _ hi)
  | .misfit h hm, ha => by cases ha with
    | plain h' hs hm' => cases h.unique h'; exact hm' hm
    | sum i err h' =>
      cases h.unique h'
      cases hm with
      | kind hm => exact hm
  | .required h hk, ha => by cases ha with
    | plain h' hs hm' hk' => cases h.unique h'; exact hk' _ _ hk
    | sum i err h' => cases h.unique h'; cases hk
  | .noVariant err h hn, ha => by cases ha with
    | plain h' hs => exact hs _ (h'.unique h)
    | sum i err h' hx hax => cases h.unique h'; exact (hn _ (List.mem_of_getElem? hx)).not_accepts hax
  | @DeFails.ambiguous _ _ _ i' j' x y h hij hi hj hax hay, ha => by cases ha with
    | plain h' hs => exact hs _ (h'.unique h)
    | sum i err h' hx ha hf =>
      cases h.unique h'
      by_cases hne : i' = i
      · exact hay.not_fails _ (hf j' _ hj (by omega))
      · exact hax.not_fails _ (hf i' _ hi hne)
  | .component h hs hsub hf, ha => by cases ha with
    | plain h' hs' hm hk hsub' => cases h.unique h'; exact hf.not_accepts (hsub' _ _ hsub)
    | sum i err h' => exact hs _ (h.unique h')

end

/-- There being different terms for a resource is not one of the things to say against a tree. -/
theorem DeFails.ne_termAmbiguity {c : DeCtx} {p : DePlace} {e : DeError} : DeFails c p e → e ≠ .termAmbiguity
  | .notFound _ => nofun
  | .inputs _ _ _ => nofun
  | .misfit _ _ => nofun
  | .required _ _ => nofun
  | .noVariant _ _ _ => nofun
  | .ambiguous _ _ _ _ _ _ => nofun
  | .component _ _ _ hf => hf.ne_termAmbiguity

/-- A tree that is accepted conforms to its layout. -/
theorem DeAccepts.conforms {c : DeCtx} {p : DePlace} : DeAccepts c p → Conforms c.reg c.isIri p.layout p.value
  | @DeAccepts.plain _ p l h hs hm hk hsub => by
    have ih := fun fmt v (h : SubCall l p.value fmt v) => (hsub fmt v h).conforms
    clear hsub
    obtain ⟨ref, count, v⟩ := p
    simp only [DePlace.via] at ih hm hk ⊢
    cases l with
    | never => exact absurd (.kind trivial) hm
    | always => exact .always v h.1
    | unit l =>
      obtain rfl : v = l.const := by
        by_contra hne
        exact hm (.kind hne)
      exact .unit h.1
    | boolean l =>
      obtain ⟨b, rfl⟩ : ∃ b, v = .literal (.boolean b) := by
        by_contra hne
        exact hm (.kind fun b hb => hne ⟨b, hb⟩)
      exact .boolean b h.1
    | number l =>
      obtain ⟨b, rfl⟩ : ∃ b, v = .literal (.number b) := by
        by_contra hne
        exact hm (.kind fun b hb => hne ⟨b, hb⟩)
      exact .number b h.1
    | byteString l =>
      obtain ⟨b, rfl⟩ : ∃ b, v = .literal (.byteString b) := by
        by_contra hne
        exact hm (.kind fun b hb => hne ⟨b, hb⟩)
      exact .byteString b h.1
    | textString l =>
      obtain ⟨b, rfl⟩ : ∃ b, v = .literal (.textString b) := by
        by_contra hne
        exact hm (.kind fun b hb => hne ⟨b, hb⟩)
      exact .textString b h.1
    | id l =>
      obtain ⟨t, rfl⟩ : ∃ t, v = .literal (.textString t) := by
        by_contra hne
        exact hm (.kind fun b hb => hne ⟨b, hb⟩)
      refine .id t h.1 ?_
      by_contra hi
      exact hm (.iri (by simpa using hi))
    | sum l => exact absurd rfl (hs l)
    | product l =>
      obtain ⟨m, rfl⟩ : ∃ m, v = .map m := by
        by_contra hne
        exact hm (.kind fun b hb => hne ⟨b, hb⟩)
      refine .product m h.1 ?_ ?_ ?_
      · intro k w hw
        by_contra hne
        exact hm (.key hw fun f hf => hne ⟨f, hf⟩)
      · intro k w f hw hf
        exact ih _ _ (.product hw hf)
      · intro k f hf hr
        by_contra hne
        exact hk k m (.mk hf hr fun w hw => hne ⟨w, hw⟩)
    | unordered l =>
      obtain ⟨vs, rfl⟩ : ∃ vs, v = .list vs := by
        by_contra hne
        exact hm (.kind fun b hb => hne ⟨b, hb⟩)
      exact .unordered vs h.1 fun w hw => ih _ _ (.unordered hw)
    | ordered l =>
      obtain ⟨vs, rfl⟩ : ∃ vs, v = .list vs := by
        by_contra hne
        exact hm (.kind fun b hb => hne ⟨b, hb⟩)
      exact .ordered vs h.1 fun w hw => ih _ _ (.ordered hw)
    | sized l =>
      obtain ⟨vs, rfl⟩ : ∃ vs, v = .list vs := by
        by_contra hne
        exact hm (.kind fun b hb => hne ⟨b, hb⟩)
      refine .sized vs h.1 ?_ fun e he => ih _ _ (.sized he)
      by_contra hlen
      exact hm (.length hlen)
  | .sum i err h hx ha _ => .sum _ _ h.1 (List.mem_of_getElem? hx) ha.conforms

namespace Dehydrate

/-- The recursive call succeeded on the variant, with some resources. -/
def CallOk (rec : Rec) (fmt : ValueFormat Term) (v : Value) : Prop := ∃ g ρ s s', call rec g fmt ρ v s = (.ok (), s')

/-- The recursive call failed on the variant, with some resources. -/
def CallErr (rec : Rec) (fmt : ValueFormat Term) (v : Value) : Prop := ∃ g ρ s s' e, call rec g fmt ρ v s = (.err e, s')

/-- What the outcome of the choice of a variant says. -/
theorem variants_outcome {rec : Rec} {graph : Option IRes} {env : Env IRes} {v : Value} {vs : List (Variant Term)}
    (hc : ∀ x ∈ vs, PatsBelow (env.flat.length + x.intro) x.dataset ∧ x.value.Below (env.flat.length + x.intro))
    {sel : Option (List (Quad IRes))} {s s' : DeState} :
    (variants rec graph env v vs sel s = (.ok (), s') →
      sel.isSome = true ∧ (∀ x ∈ vs, CallErr rec x.value v) ∨
      sel = none ∧ ∃ (i : Nat) (x : Variant Term), vs[i]? = some x ∧ CallOk rec x.value v ∧
        ∀ (j : Nat) (y : Variant Term), vs[j]? = some y → j ≠ i → CallErr rec y.value v) ∧
    ∀ e, variants rec graph env v vs sel s = (.err e, s') →
      e = .incompatibleLayout ∧ sel = none ∧ (∀ x ∈ vs, CallErr rec x.value v) ∨
      e = .dataAmbiguity ∧ (sel.isSome = true ∧ (∃ x ∈ vs, CallOk rec x.value v) ∨
        ∃ (i j : Nat) (x y : Variant Term), i ≠ j ∧ vs[i]? = some x ∧ vs[j]? = some y ∧ CallOk rec x.value v ∧ CallOk rec y.value v) := by
  induction vs generalizing s sel with
  | nil =>
    cases sel with
    | none =>
      constructor
      · intro h; simp [variants, DeM.fail] at h
      · intro e h
        simp only [variants, DeM.fail, Prod.mk.injEq, Out.err.injEq] at h
        exact .inl ⟨h.1.symm, rfl, by simp⟩
    | some q =>
      constructor
      · intro h; exact .inl ⟨rfl, by simp⟩
      · intro e h
        simp [variants, DeM.modify] at h
  | cons x vs ih =>
    rw [List.forall_mem_cons] at hc
    rw [variants_cons hc.1.1 hc.1.2]
    rcases hr : call rec graph x.value (scope env.flat x.intro s) v (alloc x.intro s) with ⟨a | e | _ | _, s1⟩
    · have hx : CallOk rec x.value v := ⟨_, _, _, _, hr⟩
      cases sel with
      | some q =>
        constructor
        · intro h; simp at h
        · intro e h
          simp only [Prod.mk.injEq, Out.err.injEq] at h
          exact .inr ⟨h.1.symm, .inl ⟨rfl, x, by simp, hx⟩⟩
      | none =>
        obtain ⟨ih1, ih2⟩ := @ih hc.2 (some (x.dataset.map (quadInst (scope env.flat x.intro s)))) s1
        constructor
        · intro h
          rcases ih1 h with ⟨-, h⟩ | ⟨h, -⟩
          · refine .inr ⟨rfl, 0, x, rfl, hx, fun j y hj hne => ?_⟩
            cases j with
            | zero => exact absurd rfl hne
            | succ j => exact h y (List.mem_of_getElem? (by simpa using hj))
          · cases h
        · intro e h
          rcases ih2 e h with ⟨-, h, -⟩ | ⟨he, h⟩
          · cases h
          · refine .inr ⟨he, .inr ?_⟩
            rcases h with ⟨-, y, hy, hoy⟩ | ⟨i, j, y, z, hij, hi, hj, h1, h2⟩
            · obtain ⟨j, hj⟩ := List.mem_iff_getElem?.1 hy
              exact ⟨0, j + 1, x, y, by omega, rfl, by simpa using hj, hx, hoy⟩
            · exact ⟨i + 1, j + 1, y, z, by omega, by simpa using hi, by simpa using hj, h1, h2⟩
    · have hx : CallErr rec x.value v := ⟨_, _, _, _, _, hr⟩
      obtain ⟨ih1, ih2⟩ := @ih hc.2 sel s1
      constructor
      · intro h
        rcases ih1 h with ⟨hs, h⟩ | ⟨hs, i, y, hi, ho, h⟩
        · exact .inl ⟨hs, List.forall_mem_cons.2 ⟨hx, h⟩⟩
        · refine .inr ⟨hs, i + 1, y, by simpa using hi, ho, fun j z hj hne => ?_⟩
          cases j with
          | zero =>
            simp only [List.getElem?_cons_zero, Option.some.injEq] at hj
            subst hj
            exact hx
          | succ j => exact h j z (by simpa using hj) (by omega)
      · intro e' h
        rcases ih2 e' h with ⟨he, hs, h⟩ | ⟨he, h⟩
        · exact .inl ⟨he, hs, List.forall_mem_cons.2 ⟨hx, h⟩⟩
        · refine .inr ⟨he, ?_⟩
          rcases h with ⟨hs, y, hy, hoy⟩ | ⟨i, j, y, z, hij, hi, hj, h1, h2⟩
          · exact .inl ⟨hs, y, List.mem_cons_of_mem _ hy, hoy⟩
          · exact .inr ⟨i + 1, j + 1, y, z, by omega, by simpa using hi, by simpa using hj, h1, h2⟩
    · constructor
      · intro h; simp at h
      · intro e h; simp at h
    · constructor
      · intro h; simp at h
      · intro e h; simp at h

/-- What is proved of each call: success says that the tree is accepted, an error says why it is not. -/
def Truthful (c : DeCtx) (rec : Rec) : Prop :=
  ∀ p g ins s, ins.length = p.inputs →
    (∀ s', rec p.value g p.layout ins s = (.ok (), s') → DeAccepts c p) ∧
    ∀ e s', rec p.value g p.layout ins s = (.err e, s') → DeFails c p e

variable {c : DeCtx} {rec : Rec}

theorem Truthful.ok (h : Truthful c rec) {fmt : ValueFormat Term} {v : Value} (hc : CallOk rec fmt v) : DeAccepts c (.via fmt v) := by
  obtain ⟨g, ρ, s, s', hc⟩ := hc
  exact (h (.via fmt v) _ _ s (by simp [DePlace.via])).1 s' hc

theorem Truthful.err (h : Truthful c rec) {fmt : ValueFormat Term} {v : Value} (hc : CallErr rec fmt v) :
    ∃ e, DeFails c (.via fmt v) e := by
  obtain ⟨g, ρ, s, s', e, hc⟩ := hc
  exact ⟨e, (h (.via fmt v) _ _ s (by simp [DePlace.via])).2 e s' hc⟩

theorem Truthful.avoid (h : Truthful c rec) {p : DePlace} {l : Layout Term} (hp : p.Has c l) (hs : ∀ l', l ≠ .sum l')
    {fmt : ValueFormat Term} {v : Value} (hsub : SubCall l p.value fmt v) :
    CallAvoid (fun e => ¬ DeFails c p e) False False rec fmt v := by
  intro g ρ s
  rcases hr : call rec g fmt ρ v s with ⟨a | e | _ | _, s'⟩
  · trivial
  · exact not_not.2 (.component hp hs hsub ((h (.via fmt v) _ _ s (by simp [DePlace.via])).2 e s' hr))
  · exact id
  · exact id

theorem sum_outcome (h : Truthful c rec) {p : DePlace} {l : SumLayout Term} (hp : p.Has c (.sum l)) (hl : (Layout.sum l).Closed)
    {g : Option IRes} {ins : List IRes} (hi : ins.length = p.inputs) (s : DeState) :
    (∀ s', layout c rec p.value g p.layout ins (.sum l) s = (.ok (), s') → DeAccepts c p) ∧
    ∀ e s', layout c rec p.value g p.layout ins (.sum l) s = (.err e, s') → DeFails c p e := by
  have hk : ins.length = l.input := hi.trans (hp.2 _ rfl)
  simp only [layout]
  rw [intro_emit (env := .root ins) (by rw [Env.flat, hk]; exact hl.1)]
  have hv : ∀ x ∈ l.variants, PatsBelow ((Env.child (.root ins) (freshList s.fresh l.intro)).flat.length + x.intro) x.dataset ∧
      x.value.Below ((Env.child (.root ins) (freshList s.fresh l.intro)).flat.length + x.intro) := by
    rw [length_flat_child, Env.flat, hk]; exact hl.2
  constructor
  · intro s' hr
    rcases (variants_outcome hv).1 hr with ⟨h', -⟩ | ⟨-, i, x, hi, ho, he⟩
    · cases h'
    · have : ∀ j, ∃ e, ∀ y, l.variants[j]? = some y → j ≠ i → DeFails c (.via y.value p.value) e := by
        intro j
        by_cases hj : j ≠ i ∧ ∃ y, l.variants[j]? = some y
        · obtain ⟨hne, y, hy⟩ := hj
          obtain ⟨e, hf⟩ := h.err (he j y hy hne)
          refine ⟨e, fun z hz _ => ?_⟩
          rw [hy] at hz
          cases hz
          exact hf
        · exact ⟨.dataAmbiguity, fun y hy hne => absurd ⟨hne, y, hy⟩ hj⟩
      choose err herr using this
      exact .sum i err hp hi (h.ok ho) fun j y hy hne => herr j y hy hne
  · intro e s' hr
    rcases (variants_outcome hv).2 e hr with ⟨rfl, -, he⟩ | ⟨rfl, ⟨h', -⟩ | ⟨i, j, x, y, hij, hi, hj, hx, hy⟩⟩
    · have : ∀ x : Variant Term, ∃ e, x ∈ l.variants → DeFails c (.via x.value p.value) e := by
        intro x
        by_cases hx : x ∈ l.variants
        · obtain ⟨e, hf⟩ := h.err (he x hx)
          exact ⟨e, fun _ => hf⟩
        · exact ⟨.dataAmbiguity, fun h => absurd h hx⟩
      choose err herr using this
      exact .noVariant err hp fun x hx => herr x hx
    · cases h'
    · exact .ambiguous hp hij hi hj (h.ok hx) (h.ok hy)

theorem plain_errors (h : Truthful c rec) {p : DePlace} {l : Layout Term} (hp : p.Has c l) (hs : ∀ l', l ≠ .sum l') (hl : l.Closed)
    {g : Option IRes} {ins : List IRes} (hp' : ins.length = p.inputs) (s : DeState) :
    (layout c rec p.value g p.layout ins l s).1.Avoid (fun e => ¬ DeFails c p e) False False := by
  have hi : ∀ k, l.inputCount = some k → ins.length = k := fun k hk => hp'.trans (hp.2 k hk)
  have hsub : ∀ {fmt v}, SubCall l p.value fmt v → CallAvoid (fun e => ¬ DeFails c p e) False False rec fmt v := fun hsub =>
    h.avoid hp hs hsub
  have hmis : l.Misfit c.isIri p.value → ¬ ¬ DeFails c p .incompatibleLayout := fun hm => not_not.2 (.misfit hp hm)
  have hreq : ∀ key m, l.Lacks p.value key m → ¬ ¬ DeFails c p (.missingRequiredKey p.layout key m) := fun key m hk =>
    not_not.2 (.required hp hk)
  clear hp'
  generalize DeFails c p = D at hsub hmis hreq ⊢
  obtain ⟨ref, count, v⟩ := p
  simp only at hsub hmis hreq ⊢
  cases l with
  | never => exact hmis (.kind trivial)
  | always => trivial
  | unit l =>
    simp only [layout]
    split
    · have := hi 1 rfl
      rw [intro_bind, instDataset_eq]
      · trivial
      · rw [length_flat_child, Env.flat, this]; exact hl
    · rename_i hne
      exact hmis (.kind hne)
  | boolean l =>
    have hi := hi 1 rfl
    simp only [layout]
    split
    · rw [data_eq (by rw [hi]; exact hl.1) (by rw [hi]; exact hl.2)]
      refine avoid_bind ?_ fun _ _ _ => trivial
      simp only [DeM.read, booleanLit]
      split
      · trivial
      · exact id
    · rename_i hne
      exact hmis (.kind fun b hb => hne b hb)
  | number l =>
    have hi := hi 1 rfl
    simp only [layout]
    split
    · rw [data_eq (by rw [hi]; exact hl.1) (by rw [hi]; exact hl.2)]
      refine avoid_bind ?_ fun _ _ _ => trivial
      simp only [DeM.read, numberLit]
      split
      · split
        · trivial
        · exact id
      · exact id
    · rename_i hne
      exact hmis (.kind fun b hb => hne b hb)
  | byteString l =>
    have hi := hi 1 rfl
    simp only [layout]
    split
    · rw [data_eq (by rw [hi]; exact hl.1) (by rw [hi]; exact hl.2)]
      refine avoid_bind ?_ fun _ _ _ => trivial
      exact id
    · rename_i hne
      exact hmis (.kind fun b hb => hne b hb)
  | textString l =>
    have hi := hi 1 rfl
    simp only [layout]
    split
    · rw [data_eq (by rw [hi]; exact hl.1) (by rw [hi]; exact hl.2)]
      refine avoid_bind ?_ fun _ _ _ => trivial
      simp only [DeM.read, textLit]
      split
      · trivial
      · exact id
    · rename_i hne
      exact hmis (.kind fun b hb => hne b hb)
  | id l =>
    have hi := hi 1 rfl
    simp only [layout]
    split
    · rw [ident_eq (by rw [hi]; exact hl.1) (by rw [hi]; exact hl.2)]
      split
      · trivial
      · rename_i hiri
        exact hmis (.iri (by simpa using hiri))
    · rename_i hne
      exact hmis (.kind fun b hb => hne b hb)
  | sum l => exact absurd rfl (hs l)
  | product l =>
    have hi := hi _ rfl
    simp only [layout]
    split
    · rw [intro_emit (env := .root ins) (by rw [Env.flat, hi]; exact hl.1)]
      refine avoid_bind (avoid_entries ?_ ?_ ?_ _) fun _ s' _ => avoid_requireKeys ?_ _
      · rw [length_flat_child, Env.flat, hi]; exact hl.2
      · intro k v hm f hf
        exact hsub (.product hm (mem_of_lookup hf))
      · intro k v hm hf
        exact hmis (.key hm fun f hmem => lookup_of_mem hmem hf)
      · intro k f hf hr
        by_cases hv : ∃ v, (k, v) ∈ ‹List (Value × Value)›
        · exact .inl hv
        · exact .inr (hreq _ _ (.mk hf hr fun v hm => hv ⟨v, hm⟩))
    · rename_i hne
      exact hmis (.kind fun b hb => hne b hb)
  | unordered l =>
    have hi := hi _ rfl
    simp only [layout]
    split
    · rw [intro_emit (env := .root ins) (by rw [Env.flat, hi]; exact hl.1)]
      refine avoid_items ?_ (fun v hv => hsub (.unordered hv)) _
      rw [length_flat_child, Env.flat, hi]; exact hl.2
    · rename_i hne
      exact hmis (.kind fun b hb => hne b hb)
  | ordered l =>
    have hi := hi _ rfl
    simp only [layout]
    split
    · rw [intro_emit (env := .root ins) (by rw [Env.flat, hi]; exact hl.1), readPattern_bind]
      · refine avoid_nodes ?_ ?_ (fun v hv => hsub (.ordered hv)) _ _
        · rw [length_flat_child, Env.flat, hi]; exact hl.2.2.1
        · rw [length_flat_child, Env.flat, hi]; exact hl.2.2.2
      · rw [length_flat_child, Env.flat, hi]; exact hl.2.1
    · rename_i hne
      exact hmis (.kind fun b hb => hne b hb)
  | sized l =>
    have hi := hi _ rfl
    simp only [layout]
    split
    · rename_i vs
      rw [intro_emit (env := .root ins) (by rw [Env.flat, hi]; exact hl.1)]
      refine avoid_sizedItems ?_ (fun e he => hsub (.sized he)) ?_ _
      · rw [length_flat_child, Env.flat, hi]; exact hl.2
      · by_cases hlen : vs.length = l.items.length
        · exact .inl hlen
        · exact .inr (hmis (.length hlen))
    · rename_i hne
      exact hmis (.kind fun b hb => hne b hb)

theorem fits_of_conforms {reg : Registry Term} {isIri : String → Bool} {ref : Term} {l : Layout Term} {v : Value} (hl : reg ref = some l)
    (h : Conforms reg isIri ref v) : ¬ l.Misfit isIri v ∧ ∀ key m, ¬ l.Lacks v key m := by
  cases h with
  | unit hr =>
    rw [hl] at hr; cases hr
    refine ⟨fun hm => ?_, fun key m hk => by cases hk⟩
    cases hm with
    | kind h => exact h rfl
  | boolean b hr =>
    rw [hl] at hr; cases hr
    refine ⟨fun hm => ?_, fun key m hk => by cases hk⟩
    cases hm with
    | kind h => exact h _ rfl
  | number b hr =>
    rw [hl] at hr; cases hr
    refine ⟨fun hm => ?_, fun key m hk => by cases hk⟩
    cases hm with
    | kind h => exact h _ rfl
  | byteString b hr =>
    rw [hl] at hr; cases hr
    refine ⟨fun hm => ?_, fun key m hk => by cases hk⟩
    cases hm with
    | kind h => exact h _ rfl
  | textString b hr =>
    rw [hl] at hr; cases hr
    refine ⟨fun hm => ?_, fun key m hk => by cases hk⟩
    cases hm with
    | kind h => exact h _ rfl
  | id t hr hiri =>
    rw [hl] at hr; cases hr
    refine ⟨fun hm => ?_, fun key m hk => by cases hk⟩
    cases hm with
    | kind h => exact h _ rfl
    | iri h => rw [hiri] at h; cases h
  | product m hr hkeys _ hreq =>
    rw [hl] at hr; cases hr
    refine ⟨fun hm => ?_, fun key m hk => ?_⟩
    · cases hm with
      | kind h => exact h _ rfl
      | key hm hno =>
        obtain ⟨f, hf⟩ := hkeys _ _ hm
        exact hno f hf
    · cases hk with
      | mk hf hr hno =>
        obtain ⟨v, hv⟩ := hreq _ _ hf hr
        exact hno v hv
  | unordered vs hr =>
    rw [hl] at hr; cases hr
    refine ⟨fun hm => ?_, fun key m hk => by cases hk⟩
    cases hm with
    | kind h => exact h _ rfl
  | ordered vs hr =>
    rw [hl] at hr; cases hr
    refine ⟨fun hm => ?_, fun key m hk => by cases hk⟩
    cases hm with
    | kind h => exact h _ rfl
  | sized vs hr hlen =>
    rw [hl] at hr; cases hr
    refine ⟨fun hm => ?_, fun key m hk => by cases hk⟩
    cases hm with
    | kind h => exact h _ rfl
    | length h => exact h hlen
  | sum x v hr =>
    rw [hl] at hr; cases hr
    refine ⟨fun hm => ?_, fun key m hk => by cases hk⟩
    cases hm with
    | kind h => exact h
  | always v hr =>
    rw [hl] at hr; cases hr
    refine ⟨fun hm => ?_, fun key m hk => by cases hk⟩
    cases hm with
    | kind h => exact h

theorem truthful (c : DeCtx) (hd : c.reg.DistinctKeys) (hc : c.reg.Closed) (n : Nat) : Truthful c (dehydrateWith c n) := by
  induction n with
  | zero =>
    intro p g ins s hi
    constructor
    · intro s' h; simp [dehydrateWith] at h
    · intro e s' h; simp [dehydrateWith] at h
  | succ n ih =>
    intro p g ins s hi
    cases hl : c.reg p.layout with
    | none =>
      unfold dehydrateWith
      rw [hl]
      refine ⟨fun s' h => by simp [DeM.fail] at h, fun e s' h => ?_⟩
      simp only [DeM.fail, Prod.mk.injEq, Out.err.injEq] at h
      rw [← h.1]
      exact .notFound hl
    | some l =>
      by_cases hk : ∀ k, l.inputCount = some k → p.inputs = k
      · have hp : p.Has c l := ⟨hl, hk⟩
        have hconf := conf_dehydrateWith c hd (n + 1) p.value g p.layout ins s
        rw [dehydrateWith_succ hl fun k hk' => hi.trans (hk k hk')] at hconf ⊢
        by_cases hs : ∃ l', l = .sum l'
        · obtain ⟨l', rfl⟩ := hs
          exact sum_outcome ih hp (hc _ _ hl) hi s
        · have hs : ∀ l', l ≠ .sum l' := fun l' h => hs ⟨l', h⟩
          constructor
          · intro s' h
            have hf := fits_of_conforms hl (hconf s' h)
            refine .plain hp hs hf.1 hf.2 fun fmt v hsub => ?_
            obtain ⟨g', ins', s1, s2, hi', h', -⟩ :=
              ran_layout (fun v g ref ins => pres_dehydrateWith keeps_rel c n v g ref ins) hd hl h hs hsub
            exact (ih (.via fmt v) g' ins' s1 hi').1 s2 h'
          · intro e s' h
            have := plain_errors ih hp hs (hc _ _ hl) (g := g) hi s
            rw [h] at this
            exact not_not.1 this
      · unfold dehydrateWith
        rw [hl]
        simp only
        cases hk' : l.inputCount with
        | none => rw [hk'] at hk; simp at hk
        | some k =>
          rw [hk'] at hk
          simp only [Option.some.injEq, forall_eq'] at hk
          rw [if_pos (by simp [hi, Ne.symm hk])]
          refine ⟨fun s' h => by simp [DeM.fail] at h, fun e s' h => ?_⟩
          simp only [DeM.fail, Prod.mk.injEq, Out.err.injEq, Option.getD_some] at h
          rw [← h.1, hi]
          exact .inputs hl hk' hk

end Dehydrate

end Verif
