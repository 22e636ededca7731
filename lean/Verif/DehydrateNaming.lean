import Verif.DehydrateSpec

/-! # The terms given to resources at the end of dehydration -/

set_option linter.unusedSectionVars false
set_option linter.unusedSimpArgs false

namespace Verif.Dehydrate

/-- The name of a resource in a naming state, if it has one. -/
def named (map : List (IRes × Term)) : IRes → Option Term
  | .term t => some t
  | r => findTerm map r

/-- Names are kept. -/
def Keeps (a b : List (IRes × Term)) : Prop := ∀ r t, named a r = some t → named b r = some t

theorem Keeps.refl (a : List (IRes × Term)) : Keeps a a := fun _ _ => id

theorem Keeps.trans {a b c : List (IRes × Term)} (h : Keeps a b) (h' : Keeps b c) : Keeps a c :=
  fun r t ht => h' r t (h r t ht)

theorem findTerm_append {a b : List (IRes × Term)} {r : IRes} :
    findTerm (a ++ b) r = (findTerm a r).or (findTerm b r) := by
  simp only [findTerm, List.find?_append]
  cases List.find? (fun e => e.1 == r) a <;> simp

theorem findTerm_singleton {r r' : IRes} {t : Term} :
    findTerm [(r, t)] r' = if r = r' then some t else none := by
  by_cases h : r = r' <;> simp [findTerm, h]

theorem findTerm_some {map : List (IRes × Term)} {r : IRes} {t : Term} (h : findTerm map r = some t) : (r, t) ∈ map := by
  unfold findTerm at h
  rw [Option.map_eq_some_iff] at h
  obtain ⟨e, he, rfl⟩ := h
  have := List.find?_some he
  simp only [beq_iff_eq] at this
  subst this
  exact List.mem_of_find?_eq_some he

theorem findTerm_none {map : List (IRes × Term)} {r : IRes} (h : findTerm map r = none) (t : Term) : (r, t) ∉ map := by
  unfold findTerm at h
  rw [Option.map_eq_none_iff, List.find?_eq_none] at h
  intro hm
  exact h _ hm (by simp)

theorem keeps_append (a b : List (IRes × Term)) : Keeps a (a ++ b) := by
  intro r t h
  cases r with
  | term _ => exact h
  | input i => simp only [named] at h ⊢; rw [findTerm_append, h]; rfl
  | anon i => simp only [named] at h ⊢; rw [findTerm_append, h]; rfl

variable (o : DeOptions) (init : List (IRes × Term))

/-- The invariant: names outside of the initial map are as the options say. -/
structure Inv (st : Naming) : Prop where
  keeps : Keeps init st.1
  input : ∀ i t, findTerm init (.input i) = none → findTerm st.1 (.input i) = some t → t = o.inputTerm i
  anon : ∃ position : Nat → Nat,
    (∀ i t, findTerm init (.anon i) = none → findTerm st.1 (.anon i) = some t →
      t = o.generator (position i) ∧ position i < st.2) ∧
    ∀ i j t t', findTerm init (.anon i) = none → findTerm init (.anon j) = none →
      findTerm st.1 (.anon i) = some t → findTerm st.1 (.anon j) = some t' → position i = position j → i = j

theorem inv_init : Inv o init (init, 0) where
  keeps := .refl _
  input i t h h' := by simp only at h'; rw [h] at h'; simp at h'
  anon := ⟨fun _ => 0, fun i t h h' => by simp only at h'; rw [h] at h'; simp at h',
    fun i j t t' h _ h' => by simp only at h'; rw [h] at h'; simp at h'⟩

variable {o init}

/-- Each call of `map_resource` returns the name of the resource, keeps names and the invariant. -/
structure Step (st st' : Naming) (o : DeOptions) (init : List (IRes × Term)) : Prop where
  keeps : Keeps st.1 st'.1
  inv : Inv o init st → Inv o init st'

theorem Step.refl (st : Naming) : Step st st o init := ⟨.refl _, id⟩

theorem Step.trans {a b c : Naming} (h : Step a b o init) (h' : Step b c o init) : Step a c o init :=
  ⟨h.keeps.trans h'.keeps, h'.inv ∘ h.inv⟩

theorem mapResource_spec (r : IRes) (st : Naming) {t : Term} {st' : Naming} (h : mapResource o r st = (t, st')) :
    named st'.1 r = some t ∧ Step st st' o init := by
  cases r with
  | term t' =>
    simp only [mapResource, Prod.mk.injEq] at h
    obtain ⟨rfl, rfl⟩ := h
    exact ⟨rfl, .refl _⟩
  | input i =>
    cases hf : findTerm st.1 (.input i) with
    | some t' =>
      simp only [mapResource, hf, Prod.mk.injEq] at h
      obtain ⟨rfl, rfl⟩ := h
      exact ⟨hf, .refl _⟩
    | none =>
      simp only [mapResource, hf, Prod.mk.injEq] at h
      obtain ⟨rfl, rfl⟩ := h
      refine ⟨?_, keeps_append _ _, fun hinv => ⟨hinv.keeps.trans (keeps_append _ _), ?_, ?_⟩⟩
      · simp [named, findTerm_append, hf, findTerm_singleton]
      · intro j t hj h
        simp only [findTerm_append, findTerm_singleton] at h
        cases hj' : findTerm st.1 (.input j) with
        | some t' => rw [hj'] at h; simp only [Option.some_or, Option.some.injEq] at h; subst h; exact hinv.input j _ hj hj'
        | none =>
          rw [hj'] at h
          simp only [Option.none_or] at h
          split at h
          · rename_i hij; cases hij; simpa using h.symm
          · simp at h
      · obtain ⟨pos, h1, h2⟩ := hinv.anon
        refine ⟨pos, ?_, ?_⟩
        · intro j t hj h
          refine h1 j t hj ?_
          simpa [findTerm_append, findTerm_singleton] using h
        · intro j k t t' hj hk h h'
          refine h2 j k t t' hj hk ?_ ?_
          · simpa [findTerm_append, findTerm_singleton] using h
          · simpa [findTerm_append, findTerm_singleton] using h'
  | anon i =>
    cases hf : findTerm st.1 (.anon i) with
    | some t' =>
      simp only [mapResource, hf, Prod.mk.injEq] at h
      obtain ⟨rfl, rfl⟩ := h
      exact ⟨hf, .refl _⟩
    | none =>
      simp only [mapResource, hf, Prod.mk.injEq] at h
      obtain ⟨rfl, rfl⟩ := h
      refine ⟨?_, keeps_append _ _, fun hinv => ⟨hinv.keeps.trans (keeps_append _ _), ?_, ?_⟩⟩
      · simp [named, findTerm_append, hf, findTerm_singleton]
      · intro j t hj h
        refine hinv.input j t hj ?_
        simpa [findTerm_append, findTerm_singleton] using h
      · obtain ⟨pos, h1, h2⟩ := hinv.anon
        have key : ∀ j t, j ≠ i → findTerm (st.1 ++ [(IRes.anon i, o.generator st.2)]) (.anon j) = some t →
            findTerm st.1 (.anon j) = some t := by
          intro j t hj h
          simpa [findTerm_append, findTerm_singleton, Ne.symm hj] using h
        refine ⟨fun j => if j = i then st.2 else pos j, ?_, ?_⟩
        · intro j t hj h
          by_cases hij : j = i
          · subst hij
            simp only [findTerm_append, hf, findTerm_singleton, if_true, Option.none_or, Option.some.injEq] at h
            simp [h]
          · have := h1 j t hj (key j t hij h)
            simp only [hij, if_false]
            exact ⟨this.1, by omega⟩
        · intro j k t t' hj hk h h' heq
          by_cases hij : j = i <;> by_cases hik : k = i
          · rw [hij, hik]
          · simp only [hij, hik, if_true, if_false] at heq
            have := (h1 k t' hk (key k t' hik h')).2
            omega
          · simp only [hij, hik, if_true, if_false] at heq
            have := (h1 j t hj (key j t hij h)).2
            omega
          · simp only [hij, hik, if_false] at heq
            exact h2 j k t t' hj hk (key j t hij h) (key k t' hik h') heq

/-- The quad is the image of the other one under the names. -/
def NamedQuad (map : List (IRes × Term)) (q : Quad IRes) (q' : Quad Term) : Prop :=
  named map q.s = some q'.s ∧ named map q.p = some q'.p ∧ named map q.o = some q'.o ∧
    match q.g, q'.g with
    | none, none => True
    | some g, some g' => named map g = some g'
    | _, _ => False

theorem NamedQuad.mono {a b : List (IRes × Term)} (h : Keeps a b) {q : Quad IRes} {q' : Quad Term}
    (hq : NamedQuad a q q') : NamedQuad b q q' := by
  obtain ⟨h1, h2, h3, h4⟩ := hq
  refine ⟨h _ _ h1, h _ _ h2, h _ _ h3, ?_⟩
  revert h4
  cases q.g <;> cases q'.g <;> simp
  exact h _ _

theorem mapQuad_spec (q : Quad IRes) (st : Naming) {q' : Quad Term} {st' : Naming} (h : mapQuad o q st = (q', st')) :
    NamedQuad st'.1 q q' ∧ Step st st' o init := by
  unfold mapQuad at h
  rcases h1 : mapResource o q.s st with ⟨a, st1⟩
  rcases h2 : mapResource o q.p st1 with ⟨b, st2⟩
  rcases h3 : mapResource o q.o st2 with ⟨c, st3⟩
  have e1 := mapResource_spec (init := init) _ _ h1
  have e2 := mapResource_spec (init := init) _ _ h2
  have e3 := mapResource_spec (init := init) _ _ h3
  simp only [h1, h2, h3] at h
  cases hg : q.g with
  | none =>
    simp only [hg, Prod.mk.injEq] at h
    obtain ⟨rfl, rfl⟩ := h
    refine ⟨⟨?_, ?_, e3.1, by simp [hg]⟩, (e1.2.trans e2.2).trans e3.2⟩
    · exact (e2.2.trans e3.2).keeps _ _ e1.1
    · exact e3.2.keeps _ _ e2.1
  | some g =>
    rcases h4 : mapResource o g st3 with ⟨d, st4⟩
    have e4 := mapResource_spec (init := init) _ _ h4
    simp only [hg, h4, Prod.mk.injEq] at h
    obtain ⟨rfl, rfl⟩ := h
    refine ⟨⟨?_, ?_, ?_, by simp [hg, e4.1]⟩, ((e1.2.trans e2.2).trans e3.2).trans e4.2⟩
    · exact ((e2.2.trans e3.2).trans e4.2).keeps _ _ e1.1
    · exact (e3.2.trans e4.2).keeps _ _ e2.1
    · exact e4.2.keeps _ _ e3.1

theorem mapQuads_spec (qs : List (Quad IRes)) (st : Naming) {qs' : List (Quad Term)} {st' : Naming}
    (h : mapQuads o qs st = (qs', st')) : List.Forall₂ (NamedQuad st'.1) qs qs' ∧ Step st st' o init := by
  induction qs generalizing st qs' with
  | nil =>
    simp only [mapQuads, Prod.mk.injEq] at h
    obtain ⟨rfl, rfl⟩ := h
    exact ⟨.nil, .refl _⟩
  | cons q qs ih =>
    rcases h1 : mapQuad o q st with ⟨a, st1⟩
    rcases h2 : mapQuads o qs st1 with ⟨b, st2⟩
    simp only [mapQuads, h1, h2, Prod.mk.injEq] at h
    obtain ⟨rfl, rfl⟩ := h
    have e1 := mapQuad_spec (init := init) _ _ h1
    have e2 := ih _ h2
    exact ⟨.cons (e1.1.mono e2.2.keeps) e2.1, e1.2.trans e2.2⟩

theorem mapInputs_spec (is : List Nat) (st : Naming) {ts : List Term} {st' : Naming}
    (h : mapInputs o is st = (ts, st')) :
    List.Forall₂ (fun i t => named st'.1 (.input i) = some t) is ts ∧ Step st st' o init := by
  induction is generalizing st ts with
  | nil =>
    simp only [mapInputs, Prod.mk.injEq] at h
    obtain ⟨rfl, rfl⟩ := h
    exact ⟨.nil, .refl _⟩
  | cons q qs ih =>
    rcases h1 : mapResource o (.input q) st with ⟨a, st1⟩
    rcases h2 : mapInputs o qs st1 with ⟨b, st2⟩
    simp only [mapInputs, h1, h2, Prod.mk.injEq] at h
    obtain ⟨rfl, rfl⟩ := h
    have e1 := mapResource_spec (init := init) _ _ h1
    have e2 := ih _ h2
    exact ⟨.cons (e2.2.keeps _ _ e1.1) e2.1, e1.2.trans e2.2⟩

theorem ambiguous_iff (s : DeState) : ambiguous s.terms = true ↔ Conflict s := by
  simp only [ambiguous, List.any_eq_true, Conflict]
  constructor
  · rintro ⟨⟨r, t⟩, hm, h⟩
    cases r with
    | term t' =>
      simp only [bne_iff_ne] at h
      exact ⟨_, t, t', hm, Ne.symm h, .inl rfl⟩
    | input i =>
      simp only [List.any_eq_true, Bool.and_eq_true, beq_iff_eq, bne_iff_ne] at h
      obtain ⟨⟨r', t'⟩, hm', h1, h2⟩ := h
      simp only at h1 h2
      subst h1
      exact ⟨_, t, t', hm, Ne.symm h2, .inr hm'⟩
    | anon i =>
      simp only [List.any_eq_true, Bool.and_eq_true, beq_iff_eq, bne_iff_ne] at h
      obtain ⟨⟨r', t'⟩, hm', h1, h2⟩ := h
      simp only at h1 h2
      subst h1
      exact ⟨_, t, t', hm, Ne.symm h2, .inr hm'⟩
  · rintro ⟨r, t, t', hm, hne, h⟩
    by_cases hr : ∃ u, r = .term u
    · obtain ⟨u, rfl⟩ := hr
      by_cases hu : u = t
      · subst hu
        rcases h with h | h
        · simp only [IRes.term.injEq] at h; exact absurd h hne
        · exact ⟨_, h, by simpa using hne⟩
      · exact ⟨_, hm, by simpa using hu⟩
    · rcases h with rfl | h
      · exact absurd ⟨_, rfl⟩ hr
      · refine ⟨_, hm, ?_⟩
        cases r with
        | term u => exact absurd ⟨_, rfl⟩ hr
        | input i =>
          simp only [List.any_eq_true, Bool.and_eq_true, beq_iff_eq, bne_iff_ne]
          exact ⟨_, h, rfl, Ne.symm hne⟩
        | anon i =>
          simp only [List.any_eq_true, Bool.and_eq_true, beq_iff_eq, bne_iff_ne]
          exact ⟨_, h, rfl, Ne.symm hne⟩

theorem mem_initialMap {terms : List (IRes × Term)} {r : IRes} {t : Term} :
    (r, t) ∈ initialMap terms ↔ (r, t) ∈ terms ∧ ∀ u, r ≠ .term u := by
  simp only [initialMap, List.mem_filter]
  cases r <;> simp

/-- Without conflict, the final map is a naming, and the quads and inputs are renamed accordingly. -/
theorem naming_spec (o : DeOptions) (s : DeState) (hs : ¬ Conflict s) (order : List (Quad IRes)) (count : Nat)
    {quads : List (Quad Term)} {st st' : Naming} {values : List Term}
    (h1 : mapQuads o order (initialMap s.terms, 0) = (quads, st))
    (h2 : mapInputs o (List.range count) st = (values, st')) :
    ∃ f, IsNaming o s (Occurs order count) f ∧ quads = order.map (Quad.map f) ∧
      values = (List.range count).map fun i => f (.input i) := by
  have e1 := mapQuads_spec (init := initialMap s.terms) _ _ h1
  have e2 := mapInputs_spec (init := initialMap s.terms) _ _ h2
  have hinv := e2.2.inv (e1.2.inv (inv_init o (initialMap s.terms)))
  have hocc : ∀ r, Occurs order count r → ∃ t, named st'.1 r = some t := by
    rintro r (⟨q, hq, h⟩ | ⟨i, hi, rfl⟩)
    · obtain ⟨q', hq', -⟩ : ∃ q', NamedQuad st.1 q q' ∧ q' ∈ quads := by
        clear h2 e2 hinv h1
        obtain ⟨e1, -⟩ := e1
        induction e1 with
        | nil => simp at hq
        | cons h _ ih =>
          rcases List.mem_cons.1 hq with rfl | hq
          · exact ⟨_, h, by simp⟩
          · obtain ⟨q', h1, h2⟩ := ih hq
            exact ⟨q', h1, List.mem_cons_of_mem _ h2⟩
      obtain ⟨a1, a2, a3, a4⟩ := hq'.mono e2.2.keeps
      rcases h with rfl | rfl | rfl | h
      · exact ⟨_, a1⟩
      · exact ⟨_, a2⟩
      · exact ⟨_, a3⟩
      · rw [h] at a4
        cases hg : q'.g with
        | none => rw [hg] at a4; exact a4.elim
        | some g => rw [hg] at a4; exact ⟨_, a4⟩
    · clear h2 hinv h1 e1
      obtain ⟨e2, -⟩ := e2
      have hi := List.mem_range.2 hi
      generalize List.range count = is at e2 hi
      induction e2 with
      | nil => simp at hi
      | cons h _ ih =>
        rcases List.mem_cons.1 hi with rfl | hi
        · exact ⟨_, h⟩
        · exact ih hi
  have hcases : ∀ r t, (r, t) ∈ s.terms → named st'.1 r = some t := by
    intro r t hm
    cases hr : findTerm (initialMap s.terms) r with
    | none =>
      cases r with
      | term u =>
        have : u = t := by
          by_contra hne
          exact hs ⟨_, t, u, hm, Ne.symm hne, .inl rfl⟩
        subst this
        rfl
      | input i => exact absurd (mem_initialMap.2 ⟨hm, by simp⟩) (findTerm_none hr t)
      | anon i => exact absurd (mem_initialMap.2 ⟨hm, by simp⟩) (findTerm_none hr t)
    | some t' =>
      have hm' := (mem_initialMap.1 (findTerm_some hr))
      have : t' = t := by
        by_contra hne
        exact hs ⟨_, t', t, hm'.1, hne, .inr hm⟩
      subst this
      refine hinv.keeps r t' ?_
      cases r with
      | term u => exact absurd rfl (hm'.2 u)
      | input i => exact hr
      | anon i => exact hr
  have hnone : ∀ r, (∀ t, (r, t) ∉ s.terms) → findTerm (initialMap s.terms) r = none := by
    intro r h
    cases hr : findTerm (initialMap s.terms) r with
    | none => rfl
    | some t => exact absurd (mem_initialMap.1 (findTerm_some hr)).1 (h t)
  refine ⟨fun r => (named st'.1 r).getD (.blank ""), ⟨?_, ?_, ?_, ?_⟩, ?_, ?_⟩
  · intro t; rfl
  · intro r t hm; simp [hcases r t hm]
  · intro i hi hn
    obtain ⟨t, ht⟩ := hocc _ hi
    simp only [ht, Option.getD_some]
    exact hinv.input i t (hnone _ hn) ht
  · obtain ⟨pos, p1, p2⟩ := hinv.anon
    refine ⟨pos, ?_, ?_⟩
    · intro i hi hn
      obtain ⟨t, ht⟩ := hocc _ hi
      simp only [ht, Option.getD_some]
      exact (p1 i t (hnone _ hn) ht).1
    · intro i j hi hni hj hnj
      obtain ⟨t, ht⟩ := hocc _ hi
      obtain ⟨t', ht'⟩ := hocc _ hj
      exact p2 i j t t' (hnone _ hni) (hnone _ hnj) ht ht'
  · have : ∀ q q', NamedQuad st'.1 q q' → q' = Quad.map (fun r => (named st'.1 r).getD (.blank "")) q := by
      rintro ⟨s, p, o, g⟩ ⟨s', p', o', g'⟩ ⟨a1, a2, a3, a4⟩
      simp only [Quad.map, a1, a2, a3, Option.getD_some, Quad.mk.injEq, true_and]
      cases g <;> cases g' <;> simp at a4 <;> simp
      simp [a4]
    have e := e1.1.imp fun q q' h => this q q' (h.mono e2.2.keeps)
    clear h1 e1 h2 e2 hocc hinv hcases
    induction e with
    | nil => rfl
    | cons h _ ih => rw [List.map_cons, h, ih]
  · have e := e2.1
    clear h2 e2 h1 e1 hocc hinv hcases
    generalize List.range count = is at e ⊢
    induction e with
    | nil => rfl
    | cons h _ ih => rw [List.map_cons, ih]; simp only [h, Option.getD_some]

end Verif.Dehydrate
