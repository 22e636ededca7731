import Verif.OneTermSpec
import Verif.DehydrateClosed
import Verif.DehydrateConform
import Verif.RoundTripRun

/-! # No resource is given two terms -/

set_option linter.unusedSectionVars false
set_option linter.unusedSimpArgs false

namespace Verif.Dehydrate.OneTerm

/-- No resource has two terms, only variables have some, and none is in the future. -/
structure Inv (s : DeState) : Prop where
  functional : ∀ r t t', (r, t) ∈ s.terms → (r, t') ∈ s.terms → t = t'
  plain : ∀ r t t', (r, t) ∈ s.terms → r ≠ .term t'
  bounded : ∀ i t, (IRes.anon i, t) ∈ s.terms → i < s.fresh

/-- The resources in `D` have no term yet. -/
structure Free (D : IRes → Prop) (s : DeState) : Prop where
  free : ∀ r t, D r → (r, t) ∉ s.terms
  plain : ∀ t, ¬ D (.term t)
  bounded : ∀ i, D (.anon i) → i < s.fresh

/-- Between the states, terms were given to resources in `D`, and to resources created in the meantime. -/
structure Step (D : IRes → Prop) (s s' : DeState) : Prop where
  inv : Inv s'
  fresh : s.fresh ≤ s'.fresh
  within : ∀ r t, (r, t) ∈ s'.terms → (r, t) ∈ s.terms ∨ D r ∨ ∃ i, r = .anon i ∧ s.fresh ≤ i ∧ i < s'.fresh

theorem Inv.congr {s s' : DeState} (h : Inv s) (ht : s'.terms = s.terms) (hf : s.fresh ≤ s'.fresh) : Inv s' where
  functional := by rw [ht]; exact h.functional
  plain := by rw [ht]; exact h.plain
  bounded i t hm := Nat.lt_of_lt_of_le (h.bounded i t (ht ▸ hm)) hf

theorem Free.mono {D D' : IRes → Prop} {s : DeState} (h : Free D s) (hd : ∀ r, D' r → D r) : Free D' s :=
  ⟨fun r t hr => h.free r t (hd r hr), fun t hr => h.plain t (hd _ hr), fun i hi => h.bounded i (hd _ hi)⟩

theorem Step.mono {D D' : IRes → Prop} {s s' : DeState} (h : Step D s s') (hd : ∀ r, D r → D' r) : Step D' s s' :=
  ⟨h.inv, h.fresh, fun r t hm => (h.within r t hm).imp id (.imp (hd r) id)⟩

theorem Step.refl {D : IRes → Prop} {s s' : DeState} (h : Inv s) (ht : s'.terms = s.terms) (hf : s.fresh ≤ s'.fresh) : Step D s s' :=
  ⟨h.congr ht hf, hf, fun _ _ hm => .inl (ht ▸ hm)⟩

theorem Step.trans {D D' : IRes → Prop} {s s1 s2 : DeState} (h : Step D s s1) (h' : Step D' s1 s2) :
    Step (fun r => D r ∨ D' r) s s2 where
  inv := h'.inv
  fresh := Nat.le_trans h.fresh h'.fresh
  within r t hm := by
    rcases h'.within r t hm with hm | hd | ⟨i, hr, h1, h2⟩
    · rcases h.within r t hm with hm | hd | ⟨i, hr, h1, h2⟩
      · exact .inl hm
      · exact .inr (.inl (.inl hd))
      · exact .inr (.inr ⟨i, hr, h1, Nat.lt_of_lt_of_le h2 h'.fresh⟩)
    · exact .inr (.inl (.inr hd))
    · exact .inr (.inr ⟨i, hr, Nat.le_trans h.fresh h1, h2⟩)

theorem Free.after {D D' : IRes → Prop} {s s' : DeState} (h : Free D' s) (hs : Step D s s') (hd : ∀ r, D r → ¬ D' r) : Free D' s' where
  free r t hr hm := by
    rcases hs.within r t hm with hm | hd' | ⟨i, rfl, h1, _⟩
    · exact h.free r t hr hm
    · exact hd r hd' hr
    · exact absurd (h.bounded i hr) (by omega)
  plain := h.plain
  bounded i hi := Nat.lt_of_lt_of_le (h.bounded i hi) hs.fresh

/-- The resources the variables in `A` stand for. -/
def Img (ρ : List IRes) (A : Nat → Prop) (r : IRes) : Prop := ∃ x, A x ∧ ρ[x]? = some r

/-- Different variables in `A` stand for different resources. -/
def Inj (ρ : List IRes) (A : Nat → Prop) : Prop := ∀ x x' r, A x → A x' → ρ[x]? = some r → ρ[x']? = some r → x = x'

theorem Inj.mono {ρ : List IRes} {A B : Nat → Prop} (h : Inj ρ A) (hb : ∀ x, B x → A x) : Inj ρ B :=
  fun x x' r hx hx' => h x x' r (hb x hx) (hb x' hx')

theorem Img.mono {ρ : List IRes} {A B : Nat → Prop} (hb : ∀ x, B x → A x) {r : IRes} (h : Img ρ B r) : Img ρ A r :=
  ⟨h.choose, hb _ h.choose_spec.1, h.choose_spec.2⟩

theorem scope_cases {ρ : List IRes} {k : Nat} {s : DeState} {x : Nat} {r : IRes} (h : (scope ρ k s)[x]? = some r) :
    ρ[x]? = some r ∨ ρ.length ≤ x ∧ r = .anon (s.fresh + (x - ρ.length)) ∧ x - ρ.length < k := by
  unfold scope at h
  by_cases hx : x < ρ.length
  · rw [List.getElem?_append_left hx] at h
    exact .inl h
  · rw [List.getElem?_append_right (by omega)] at h
    refine .inr ⟨by omega, ?_⟩
    unfold freshList at h
    rw [List.getElem?_map, Option.map_eq_some_iff] at h
    obtain ⟨i, hi, rfl⟩ := h
    rw [List.getElem?_eq_some_iff] at hi
    obtain ⟨hlt, hi⟩ := hi
    rw [List.length_range'] at hlt
    rw [List.getElem_range'] at hi
    exact ⟨by rw [← hi, Nat.one_mul], hlt⟩

variable {ρ : List IRes} {A : Nat → Prop} {k : Nat} {s s1 : DeState}

theorem scope_inj (hi : Inj ρ A) (hf : Free (Img ρ A) s) : Inj (scope ρ k s) A := by
  intro x x' r hx hx' h h'
  rcases scope_cases h with h | ⟨h1, h2, h3⟩ <;> rcases scope_cases h' with h' | ⟨h1', h2', h3'⟩
  · exact hi x x' r hx hx' h h'
  · subst h2'
    exact absurd (hf.bounded _ ⟨x, hx, h⟩) (by omega)
  · subst h2
    exact absurd (hf.bounded _ ⟨x', hx', h'⟩) (by omega)
  · rw [h2] at h2'
    injection h2' with h2'
    omega

theorem scope_free (hinv : Inv s) (hf : Free (Img ρ A) s) (ht : s1.terms = s.terms) (hfr : s1.fresh = s.fresh + k) :
    Free (Img (scope ρ k s) A) s1 where
  free := by
    rintro r t ⟨x, hx, h⟩ hm
    rw [ht] at hm
    rcases scope_cases h with h | ⟨h1, rfl, h3⟩
    · exact hf.free r t ⟨x, hx, h⟩ hm
    · exact absurd (hinv.bounded _ _ hm) (by omega)
  plain := by
    rintro t ⟨x, hx, h⟩
    rcases scope_cases h with h | ⟨h1, h2, h3⟩
    · exact hf.plain t ⟨x, hx, h⟩
    · cases h2
  bounded := by
    rintro i ⟨x, hx, h⟩
    rcases scope_cases h with h | ⟨h1, h2, h3⟩
    · have := hf.bounded i ⟨x, hx, h⟩
      omega
    · injection h2 with h2
      omega

theorem scope_step {s' : DeState} (h : Step (Img (scope ρ k s) A) s1 s') (ht : s1.terms = s.terms) (hfr : s1.fresh = s.fresh + k) :
    Step (Img ρ A) s s' where
  inv := h.inv
  fresh := by have := h.fresh; omega
  within r t hm := by
    have hfresh := h.fresh
    rcases h.within r t hm with hm | ⟨x, hx, hr⟩ | ⟨i, hr, h1, h2⟩
    · exact .inl (ht ▸ hm)
    · rcases scope_cases hr with h | ⟨h1, h2, h3⟩
      · exact .inr (.inl ⟨x, hx, h⟩)
      · exact .inr (.inr ⟨_, h2, by omega, by omega⟩)
    · exact .inr (.inr ⟨i, hr, by omega, h2⟩)

/-- The resources that the layout may give a term to. -/
def Targets (reg : Registry Term) (ref : Term) (ins : List IRes) : IRes → Prop := Img ins (Assigns reg ref)

/-- The layout is not for values of this kind. -/
def Dead (reg : Registry Term) (ref : Term) (v : Value) : Prop := ∀ l, reg ref = some l → l.HeadMismatch v

/-- What is proved of each call. -/
structure RecOne (reg : Registry Term) (rec : Rec) : Prop where
  step : ∀ v g ref ins s, v.Sorted → Inv s → Inj ins (Assigns reg ref) → Free (Targets reg ref ins) s →
    Step (Targets reg ref ins) s (rec v g ref ins s).2
  dead : ∀ v g ref ins s, Dead reg ref v → (rec v g ref ins s).2 = s

variable {reg : Registry Term} {rec : Rec}

theorem call_step (hr : RecOne reg rec) {fmt : ValueFormat Term} (hd : fmt.Direct reg) (hb : fmt.Below ρ.length) {v : Value} (hv : v.Sorted)
    (g : Option IRes) (hinv : Inv s) (hi : Inj ρ (fmt.AssignsVar reg)) (hf : Free (Img ρ (fmt.AssignsVar reg)) s) :
    Step (Img ρ (fmt.AssignsVar reg)) s (call rec g fmt ρ v s).2 := by
  have key : ∀ j r, Assigns reg fmt.layout j → (fmt.input.map (patInst ρ))[j]? = some r →
      ∃ x, fmt.input[j]? = some (.var x) ∧ ρ[x]? = some r := by
    intro j r hj hjr
    obtain ⟨x, hx⟩ := hd.var j hj
    refine ⟨x, hx, ?_⟩
    rw [List.getElem?_map, hx] at hjr
    simp only [Option.map_some, Option.some.injEq, patInst] at hjr
    have hlt : x < ρ.length := hb.1 _ (List.mem_of_getElem? hx) x (by simp [Pattern.vars])
    rw [List.getD_eq_getElem?_getD, List.getElem?_eq_getElem hlt, Option.getD_some] at hjr
    rw [List.getElem?_eq_getElem hlt, hjr]
  have hsub : ∀ r, Targets reg fmt.layout (fmt.input.map (patInst ρ)) r → Img ρ (fmt.AssignsVar reg) r := by
    rintro r ⟨j, hj, hjr⟩
    obtain ⟨x, hx, hxr⟩ := key j r hj hjr
    exact ⟨x, ⟨j, hx, hj⟩, hxr⟩
  refine (hr.step v _ fmt.layout _ s hv hinv ?_ (hf.mono hsub)).mono hsub
  intro j j' r hj hj' hr hr'
  obtain ⟨x, hx, hxr⟩ := key j r hj hr
  obtain ⟨x', hx', hxr'⟩ := key j' r hj' hr'
  obtain rfl := hi x x' r ⟨j, hx, hj⟩ ⟨j', hx', hj'⟩ hxr hxr'
  exact hd.inj j j' x hj hj' hx hx'

theorem scoped_call (hr : RecOne reg rec) {fmt : ValueFormat Term} (hd : fmt.Direct reg) (hb : fmt.Below (ρ.length + k)) {v : Value}
    (hv : v.Sorted) (g : Option IRes) (hinv : Inv s) (hi : Inj ρ (fmt.AssignsVar reg)) (hf : Free (Img ρ (fmt.AssignsVar reg)) s)
    (ht : s1.terms = s.terms) (hfr : s1.fresh = s.fresh + k) :
    Step (Img ρ (fmt.AssignsVar reg)) s (call rec g fmt (scope ρ k s) v s1).2 :=
  scope_step (call_step hr hd (by rw [length_scope]; exact hb) hv g (hinv.congr ht (by omega)) (scope_inj hi hf) (scope_free hinv hf ht hfr))
    ht hfr

theorem items_step (hr : RecOne reg rec) {graph : Option IRes} {env : Env IRes} {item : ItemLayout Term}
    (hc : item.Closed (env.flat.length + item.intro)) (hd : item.value.Direct reg)
    (ha : ∀ x, item.value.AssignsVar reg x → env.flat.length ≤ x) {vs : List Value} (hv : ∀ v ∈ vs, v.Sorted) (s : DeState) (hinv : Inv s) :
    Step (fun _ => False) s (items rec graph env item vs s).2 := by
  have hno : ∀ r, ¬ Img env.flat (item.value.AssignsVar reg) r := by
    rintro r ⟨x, hx, hr⟩
    obtain ⟨hlt, -⟩ := List.getElem?_eq_some_iff.1 hr
    exact absurd (ha x hx) (by omega)
  induction vs generalizing s with
  | nil => exact .refl hinv rfl (Nat.le_refl _)
  | cons v vs ih =>
    rw [List.forall_mem_cons] at hv
    rw [items_cons hc]
    have h1 := scoped_call (k := item.intro) (s1 := emit (scope env.flat item.intro s) item.dataset (alloc item.intro s)) hr hd hc.2 hv.1 graph
      hinv (fun x x' r hx _ h _ => absurd ⟨x, hx, h⟩ (hno r)) ⟨fun r _ h => absurd h (hno r), fun t h => hno _ h, fun i h => absurd h (hno _)⟩ rfl rfl
    have h1 : Step (fun _ => False) s _ := h1.mono fun r h => hno r h
    unfold DeM.bind
    rcases h : call rec graph item.value (scope env.flat item.intro s) v
      (emit (scope env.flat item.intro s) item.dataset (alloc item.intro s)) with ⟨a | e | _ | _, s'⟩ <;> rw [h] at h1
    · exact (h1.trans (ih hv.2 s' h1.inv)).mono fun r h => h.elim id id
    all_goals exact h1

theorem nodes_step (hr : RecOne reg rec) {graph : Option IRes} {env : Env IRes} {node : ItemLayout Term} {tail : Pattern Term}
    (ht : tail.Below env.flat.length) (hc : node.Closed (env.flat.length + 2 + node.intro)) (hd : node.value.Direct reg)
    (ha : ∀ x, node.value.AssignsVar reg x → env.flat.length + 2 ≤ x) {vs : List Value} (hv : ∀ v ∈ vs, v.Sorted) (head : IRes)
    (s : DeState) (hinv : Inv s) : Step (fun _ => False) s (nodes rec graph env node tail head vs s).2 := by
  induction vs generalizing s head with
  | nil => exact .refl hinv rfl (Nat.le_refl _)
  | cons v vs ih =>
    rw [List.forall_mem_cons] at hv
    rw [nodes_cons ht hc]
    have hterms : (allocNext vs s).terms = s.terms := by unfold allocNext; split <;> rfl
    have hfresh : s.fresh ≤ (allocNext vs s).fresh := by
      unfold allocNext
      split
      · exact Nat.le_refl _
      · exact Nat.le_add_right _ _
    generalize hn : nextNode env.flat tail vs s = next
    generalize hs0 : allocNext vs s = s0 at hterms hfresh
    have hno : ∀ r, ¬ Img (env.flat ++ [head, next]) (node.value.AssignsVar reg) r := by
      rintro r ⟨x, hx, hr⟩
      obtain ⟨hlt, -⟩ := List.getElem?_eq_some_iff.1 hr
      have := ha x hx
      simp at hlt
      omega
    have h0 : Step (fun _ => False) s s0 := .refl hinv hterms hfresh
    have h1 := scoped_call (ρ := env.flat ++ [head, next]) (k := node.intro) (s := s0)
      (s1 := emit (scope (env.flat ++ [head, next]) node.intro s0) node.dataset (alloc node.intro s0)) hr hd
      (by simpa using hc.2) hv.1 graph h0.inv (fun x x' r hx _ h _ => absurd ⟨x, hx, h⟩ (hno r))
      ⟨fun r _ h => absurd h (hno r), fun t h => hno _ h, fun i h => absurd h (hno _)⟩ rfl rfl
    have h1 : Step (fun _ => False) s0 _ := h1.mono fun r h => hno r h
    unfold DeM.bind
    rcases h : call rec graph node.value (scope (env.flat ++ [head, next]) node.intro s0) v
      (emit (scope (env.flat ++ [head, next]) node.intro s0) node.dataset (alloc node.intro s0)) with ⟨a | e | _ | _, s'⟩ <;> rw [h] at h1
    · exact ((h0.trans h1).trans (ih hv.2 next s' h1.inv)).mono fun r h => by simpa using h
    all_goals exact (h0.trans h1).mono fun r h => by simpa using h

theorem entries_step (hr : RecOne reg rec) {graph : Option IRes} {env : Env IRes} {fields : List (Value × Field Term)}
    (hc : ∀ e ∈ fields, PatsBelow (env.flat.length + e.2.intro) e.2.dataset ∧ e.2.value.Below (env.flat.length + e.2.intro))
    (hd : ∀ e ∈ fields, e.2.value.Direct reg)
    (hap : ∀ e ∈ fields, ∀ e' ∈ fields, e.1 ≠ e'.1 → Apart reg env.flat.length e.2.value e'.2.value)
    (hi : Inj env.flat fun x => ∃ e ∈ fields, e.2.value.AssignsVar reg x)
    {m : List (Value × Value)} (hm : (m.map Prod.fst).Nodup) (hv : ∀ e ∈ m, e.2.Sorted) (s : DeState) (hinv : Inv s)
    (hf : Free (fun r => ∃ e ∈ fields, e.1 ∈ m.map Prod.fst ∧ Img env.flat (e.2.value.AssignsVar reg) r) s) :
    Step (fun r => ∃ e ∈ fields, e.1 ∈ m.map Prod.fst ∧ Img env.flat (e.2.value.AssignsVar reg) r) s
      (entries rec graph env fields m s).2 := by
  induction m generalizing s with
  | nil => exact .refl hinv rfl (Nat.le_refl _)
  | cons e m ih =>
    obtain ⟨key, v⟩ := e
    rw [List.forall_mem_cons] at hv
    rw [List.map_cons, List.nodup_cons] at hm
    cases hl : lookup key fields with
    | none =>
      unfold entries
      simp only [hl]
      exact .refl hinv rfl (Nat.le_refl _)
    | some f =>
      have hmem := mem_of_lookup hl
      have hcf := hc _ hmem
      rw [entries_cons hl hcf.1 hcf.2]
      have h1 := scoped_call (k := f.intro) (s1 := emit (scope env.flat f.intro s) f.dataset (alloc f.intro s)) hr (hd _ hmem) hcf.2 hv.1 graph
        hinv (hi.mono fun x hx => ⟨_, hmem, hx⟩) (hf.mono fun r h => ⟨_, hmem, by simp, h⟩) rfl rfl
      have hdis : ∀ r, Img env.flat (f.value.AssignsVar reg) r →
          ¬ ∃ e ∈ fields, e.1 ∈ m.map Prod.fst ∧ Img env.flat (e.2.value.AssignsVar reg) r := by
        rintro r ⟨x, hx, hxr⟩ ⟨e, he, hek, x', hx', hxr'⟩
        obtain rfl := hi x x' r ⟨_, hmem, hx⟩ ⟨_, he, hx'⟩ hxr hxr'
        obtain ⟨hlt, -⟩ := List.getElem?_eq_some_iff.1 hxr
        exact hap _ hmem _ he (fun h => hm.1 (h ▸ hek)) x hlt ⟨hx, hx'⟩
      have hf' : Free (fun r => ∃ e ∈ fields, e.1 ∈ m.map Prod.fst ∧ Img env.flat (e.2.value.AssignsVar reg) r) s :=
        hf.mono fun r ⟨e, he, hk, h⟩ => ⟨e, he, List.mem_cons_of_mem _ hk, h⟩
      have hfin := fun s' h => ih hm.2 hv.2 s' h
      unfold DeM.bind
      rcases h : call rec graph f.value (scope env.flat f.intro s) v (emit (scope env.flat f.intro s) f.dataset (alloc f.intro s)) with
        ⟨a | e | _ | _, s'⟩ <;> rw [h] at h1
      · refine (h1.trans (hfin s' h1.inv (hf'.after h1 hdis))).mono ?_
        rintro r (h | ⟨e, he, hk, h⟩)
        · exact ⟨_, hmem, by simp, h⟩
        · exact ⟨e, he, List.mem_cons_of_mem _ hk, h⟩
      all_goals exact h1.mono fun r h => ⟨_, hmem, by simp, h⟩

theorem sizedItems_step (hr : RecOne reg rec) {graph : Option IRes} {env : Env IRes} {is : List (ItemLayout Term)}
    (hc : ∀ i ∈ is, i.Closed (env.flat.length + i.intro)) (hd : ∀ i ∈ is, i.value.Direct reg)
    (hap : is.Pairwise fun i i' => Apart reg env.flat.length i.value i'.value)
    (hi : Inj env.flat fun x => ∃ i ∈ is, i.value.AssignsVar reg x)
    {vs : List Value} (hv : ∀ v ∈ vs, v.Sorted) (s : DeState) (hinv : Inv s)
    (hf : Free (fun r => ∃ i ∈ is, Img env.flat (i.value.AssignsVar reg) r) s) :
    Step (fun r => ∃ i ∈ is, Img env.flat (i.value.AssignsVar reg) r) s (sizedItems rec graph env vs is s).2 := by
  induction vs generalizing s is with
  | nil => cases is <;> exact .refl hinv rfl (Nat.le_refl _)
  | cons v vs ih =>
    cases is with
    | nil => exact .refl hinv rfl (Nat.le_refl _)
    | cons i is =>
      rw [List.forall_mem_cons] at hc hd hv
      rw [List.pairwise_cons] at hap
      rw [sizedItems_cons hc.1]
      have h1 := scoped_call (k := i.intro) (s1 := emit (scope env.flat i.intro s) i.dataset (alloc i.intro s)) hr hd.1 hc.1.2 hv.1 graph
        hinv (hi.mono fun x hx => ⟨i, by simp, hx⟩) (hf.mono fun r h => ⟨i, by simp, h⟩) rfl rfl
      have hdis : ∀ r, Img env.flat (i.value.AssignsVar reg) r → ¬ ∃ i ∈ is, Img env.flat (i.value.AssignsVar reg) r := by
        rintro r ⟨x, hx, hxr⟩ ⟨i', hi', x', hx', hxr'⟩
        obtain rfl := hi x x' r ⟨i, by simp, hx⟩ ⟨i', by simp [hi'], hx'⟩ hxr hxr'
        obtain ⟨hlt, -⟩ := List.getElem?_eq_some_iff.1 hxr
        exact hap.1 i' hi' x hlt ⟨hx, hx'⟩
      have hf' : Free (fun r => ∃ i ∈ is, Img env.flat (i.value.AssignsVar reg) r) s :=
        hf.mono fun r ⟨i, hi, h⟩ => ⟨i, List.mem_cons_of_mem _ hi, h⟩
      have hfin := fun s' h => ih hc.2 hd.2 hap.2 (hi.mono fun x ⟨i, hi, h⟩ => ⟨i, List.mem_cons_of_mem _ hi, h⟩) hv.2 s' h
      unfold DeM.bind
      rcases h : call rec graph i.value (scope env.flat i.intro s) v (emit (scope env.flat i.intro s) i.dataset (alloc i.intro s)) with
        ⟨a | e | _ | _, s'⟩ <;> rw [h] at h1
      · refine (h1.trans (hfin s' h1.inv (hf'.after h1 hdis))).mono ?_
        rintro r (h | ⟨i', hi', h⟩)
        · exact ⟨i, by simp, h⟩
        · exact ⟨i', List.mem_cons_of_mem _ hi', h⟩
      all_goals exact h1.mono fun r h => ⟨i, by simp, h⟩

theorem variants_step (hr : RecOne reg rec) {graph : Option IRes} {env : Env IRes} {v : Value} {vs : List (Variant Term)}
    (hc : ∀ x ∈ vs, PatsBelow (env.flat.length + x.intro) x.dataset ∧ x.value.Below (env.flat.length + x.intro))
    (hd : ∀ x ∈ vs, x.value.Direct reg)
    (hap : vs.Pairwise fun x y => Apart reg env.flat.length x.value y.value ∨ NoCommonKind reg x.value.layout y.value.layout)
    (hi : Inj env.flat fun x => ∃ y ∈ vs, y.value.AssignsVar reg x)
    (hv : v.Sorted) (sel : Option (List (Quad IRes))) (s : DeState) (hinv : Inv s)
    (hf : Free (fun r => ∃ x ∈ vs, ¬ Dead reg x.value.layout v ∧ Img env.flat (x.value.AssignsVar reg) r) s) :
    Step (fun r => ∃ x ∈ vs, ¬ Dead reg x.value.layout v ∧ Img env.flat (x.value.AssignsVar reg) r) s
      (variants rec graph env v vs sel s).2 := by
  induction vs generalizing s sel with
  | nil => cases sel <;> exact .refl hinv rfl (Nat.le_refl _)
  | cons y vs ih =>
    rw [List.forall_mem_cons] at hc hd
    rw [List.pairwise_cons] at hap
    rw [variants_cons hc.1.1 hc.1.2]
    have h1 : Step (fun r => ¬ Dead reg y.value.layout v ∧ Img env.flat (y.value.AssignsVar reg) r) s
        (call rec graph y.value (scope env.flat y.intro s) v (alloc y.intro s)).2 := by
      by_cases hdead : Dead reg y.value.layout v
      · unfold call
        rw [hr.dead _ _ _ _ _ hdead]
        exact .refl hinv rfl (Nat.le_add_right _ _)
      · refine (scoped_call (k := y.intro) (s1 := alloc y.intro s) hr hd.1 hc.1.2 hv graph
          hinv (hi.mono fun x hx => ⟨y, by simp, hx⟩) (hf.mono fun r h => ⟨y, by simp, hdead, h⟩) rfl rfl).mono fun r h => ⟨hdead, h⟩
    have hdis : ∀ r, ¬ Dead reg y.value.layout v ∧ Img env.flat (y.value.AssignsVar reg) r →
        ¬ ∃ x ∈ vs, ¬ Dead reg x.value.layout v ∧ Img env.flat (x.value.AssignsVar reg) r := by
      rintro r ⟨hdy, x, hx, hxr⟩ ⟨y', hy', hdy', x', hx', hxr'⟩
      obtain rfl := hi x x' r ⟨y, by simp, hx⟩ ⟨y', by simp [hy'], hx'⟩ hxr hxr'
      obtain ⟨hlt, -⟩ := List.getElem?_eq_some_iff.1 hxr
      rcases hap.1 y' hy' with h | h
      · exact h x hlt ⟨hx, hx'⟩
      · unfold Dead at hdy hdy'
        push Not at hdy hdy'
        obtain ⟨l, hl, hm⟩ := hdy
        obtain ⟨l', hl', hm'⟩ := hdy'
        exact (h l l' v hl hl').elim hm hm'
    have hf' : Free (fun r => ∃ x ∈ vs, ¬ Dead reg x.value.layout v ∧ Img env.flat (x.value.AssignsVar reg) r) s :=
      hf.mono fun r ⟨x, hx, h⟩ => ⟨x, List.mem_cons_of_mem _ hx, h⟩
    have hfin := fun sel s' h => ih hc.2 hd.2 hap.2 (hi.mono fun x ⟨i, hi, h⟩ => ⟨i, List.mem_cons_of_mem _ hi, h⟩) sel s' h
    have hall : ∀ sel s', Step (fun r => ¬ Dead reg y.value.layout v ∧ Img env.flat (y.value.AssignsVar reg) r) s s' →
        Step (fun r => ∃ x ∈ y :: vs, ¬ Dead reg x.value.layout v ∧ Img env.flat (x.value.AssignsVar reg) r) s
          (variants rec graph env v vs sel s').2 := by
      intro sel s' h1
      refine (h1.trans (hfin sel s' h1.inv (hf'.after h1 hdis))).mono ?_
      rintro r (h | ⟨x, hx, h⟩)
      · exact ⟨y, by simp, h⟩
      · exact ⟨x, List.mem_cons_of_mem _ hx, h⟩
    have hone : ∀ s', Step (fun r => ¬ Dead reg y.value.layout v ∧ Img env.flat (y.value.AssignsVar reg) r) s s' →
        Step (fun r => ∃ x ∈ y :: vs, ¬ Dead reg x.value.layout v ∧ Img env.flat (x.value.AssignsVar reg) r) s s' :=
      fun s' h => h.mono fun r h => ⟨y, by simp, h⟩
    rcases h : call rec graph y.value (scope env.flat y.intro s) v (alloc y.intro s) with ⟨a | e | _ | _, s'⟩ <;> rw [h] at h1
    · cases sel with
      | some q => exact hone s' h1
      | none => exact hall _ s' h1
    · exact hall _ s' h1
    · exact hone s' h1
    · exact hone s' h1

theorem assign_step {D : IRes → Prop} (hinv : Inv s) (hf : Free D s) {r : IRes} (hr : D r) (t : Term) : Step D s (assign r t s).2 := by
  have hm : ∀ r' t', (r', t') ∈ (assign r t s).2.terms → (r', t') ∈ s.terms ∨ r' = r ∧ t' = t := by
    intro r' t' h
    simp only [assign, DeM.modify] at h
    split at h
    · exact .inl h
    · rw [List.mem_append, List.mem_singleton, Prod.mk.injEq] at h
      exact h
  refine ⟨⟨?_, ?_, ?_⟩, Nat.le_refl _, ?_⟩
  · intro r' t1 t2 h1 h2
    rcases hm _ _ h1 with k1 | ⟨k1, l1⟩ <;> rcases hm _ _ h2 with k2 | ⟨k2, l2⟩
    · exact hinv.functional _ _ _ k1 k2
    · exact absurd k1 (hf.free _ _ (k2 ▸ hr))
    · exact absurd k2 (hf.free _ _ (k1 ▸ hr))
    · rw [l1, l2]
  · rintro r' t1 t' h1 rfl
    rcases hm _ _ h1 with h1 | ⟨rfl, rfl⟩
    · exact hinv.plain _ _ _ h1 rfl
    · exact hf.plain _ hr
  · intro i t' h1
    rcases hm _ _ h1 with h1 | ⟨rfl, rfl⟩
    · exact hinv.bounded _ _ h1
    · exact hf.bounded _ hr
  · intro r' t' h1
    rcases hm _ _ h1 with h1 | ⟨rfl, rfl⟩
    · exact .inl h1
    · exact .inr (.inl hr)

theorem step_read {α : Type} {D : IRes → Prop} {f : DeState → Out DeError α} {g : α → DeM Unit} (hinv : Inv s)
    (h : ∀ a, Step D s (g a s).2) : Step D s (((DeM.read f).bind g) s).2 := by
  unfold DeM.bind DeM.read
  rcases f s with a | e | _ | _
  · exact h a
  all_goals exact .refl hinv rfl (Nat.le_refl _)

/-- One resource is given a term. -/
theorem assigned {ref : Term} {ins : List IRes} (hin : ins.length = 1) {x : Nat} (hlt : x < 1 + k) (h0 : x = 0 → Assigns reg ref 0)
    (hinv : Inv s) (hf : Free (Targets reg ref ins) s) (ht : s1.terms = s.terms)
    (hfr : s1.fresh = s.fresh + k) {s' : DeState}
    (h : ∀ D, Free D s1 → D (patInst (scope ins k s) (.var x)) → Step D s1 s') : Step (Targets reg ref ins) s s' := by
  have hsub : ∀ r, Img ins (· = x) r → Targets reg ref ins r := by
    rintro r ⟨y, rfl, hr⟩
    obtain ⟨hy, -⟩ := List.getElem?_eq_some_iff.1 hr
    obtain rfl : y = 0 := by omega
    exact ⟨0, h0 rfl, hr⟩
  refine (scope_step (h _ (scope_free hinv (hf.mono hsub) ht hfr) ⟨x, rfl, ?_⟩) ht hfr).mono hsub
  have : x < (scope ins k s).length := by rw [length_scope, hin]; exact hlt
  rw [patInst, List.getD_eq_getElem?_getD, List.getElem?_eq_getElem this, Option.getD_some]

/-- The formats of the layout give terms to variables. -/
theorem composite {ref : Term} {l : Layout Term} (hl : reg ref = some l) {ins : List IRes} (hcount : l.inputCount = some ins.length)
    (hinv : Inv s) (hinj : Inj ins (Assigns reg ref)) (hf : Free (Targets reg ref ins) s) (ht : s1.terms = s.terms)
    (hfr : s1.fresh = s.fresh + k) {s' : DeState}
    (h : Inv s1 → Inj (Env.child (.root ins) (freshList s.fresh k)).flat (fun x => ∃ fmt ∈ l.formats, fmt.AssignsVar reg x) →
      Free (Img (Env.child (.root ins) (freshList s.fresh k)).flat fun x => ∃ fmt ∈ l.formats, fmt.AssignsVar reg x) s1 →
      Step (Img (Env.child (.root ins) (freshList s.fresh k)).flat fun x => ∃ fmt ∈ l.formats, fmt.AssignsVar reg x) s1 s') : Step (Targets reg ref ins) s s' := by
  have hass : ∀ x r, (∃ fmt ∈ l.formats, fmt.AssignsVar reg x) → ins[x]? = some r → Assigns reg ref x := by
    rintro x r ⟨fmt, hfmt, j, hj, hja⟩ hr
    obtain ⟨hy, -⟩ := List.getElem?_eq_some_iff.1 hr
    exact .sub hl hcount hfmt hy hj hja
  have hsub : ∀ r, Img ins (fun x => ∃ fmt ∈ l.formats, fmt.AssignsVar reg x) r → Targets reg ref ins r := by
    rintro r ⟨x, hx, hr⟩
    exact ⟨x, hass x r hx hr, hr⟩
  have hi : Inj ins (fun x => ∃ fmt ∈ l.formats, fmt.AssignsVar reg x) := fun x x' r hx hx' hr hr' =>
    hinj x x' r (hass x r hx hr) (hass x' r hx' hr') hr hr'
  exact (scope_step (h (hinv.congr ht (by omega)) (scope_inj hi (hf.mono hsub)) (scope_free hinv (hf.mono hsub) ht hfr)) ht hfr).mono hsub

theorem layout_step {c : DeCtx} (hr : RecOne c.reg rec) {ref : Term} {l : Layout Term} (hl : c.reg ref = some l) (hcl : l.Closed)
    (hone : l.OneTerm c.reg) {v : Value} (hv : v.Sorted) {g : Option IRes} {ins : List IRes}
    (hcount : ∀ k, l.inputCount = some k → ins.length = k) (hinv : Inv s) (hinj : Inj ins (Assigns c.reg ref))
    (hf : Free (Targets c.reg ref ins) s) : Step (Targets c.reg ref ins) s (layout c rec v g ref ins l s).2 := by
  have hlt : ∀ (k : Nat) (d : List (QuadPat Term)) (p : Pattern Term) (x : Nat), p = .var x → PatsBelow (1 + k) d ∧ p.Below (1 + k) → x < 1 + k := by
    rintro k d p x rfl ⟨-, h⟩
    exact h x (by simp [Pattern.vars])
  cases l with
  | never => exact .refl hinv rfl (Nat.le_refl _)
  | always => exact .refl hinv rfl (Nat.le_refl _)
  | unit l =>
    simp only [layout]
    split
    · have := hcount 1 rfl
      rw [intro_bind, instDataset_eq]
      · exact .refl hinv rfl (Nat.le_add_right _ _)
      · rw [length_flat_child, Env.flat, this]; exact hcl
    · exact .refl hinv rfl (Nat.le_refl _)
  | boolean l =>
    have hi := hcount 1 rfl
    obtain ⟨x, hx⟩ := hone
    simp only [layout]
    split
    · rw [data_eq (by rw [hi]; exact hcl.1) (by rw [hi]; exact hcl.2)]
      refine assigned (k := l.intro) (s1 := emit (scope ins l.intro s) l.dataset (alloc l.intro s)) hi (hlt l.intro l.dataset l.resource x hx hcl)
        (fun h0 => .boolean hl (h0 ▸ hx)) hinv hf rfl rfl fun D h hr => ?_
      refine step_read (hinv.congr rfl (Nat.le_add_right _ _)) fun lit => ?_
      rw [hx]
      exact assign_step (s := emit (scope ins l.intro s) l.dataset (alloc l.intro s)) (hinv.congr rfl (Nat.le_add_right _ _)) h hr _
    · exact .refl hinv rfl (Nat.le_refl _)
  | number l =>
    have hi := hcount 1 rfl
    obtain ⟨x, hx⟩ := hone
    simp only [layout]
    split
    · rw [data_eq (by rw [hi]; exact hcl.1) (by rw [hi]; exact hcl.2)]
      refine assigned (k := l.intro) (s1 := emit (scope ins l.intro s) l.dataset (alloc l.intro s)) hi (hlt l.intro l.dataset l.resource x hx hcl)
        (fun h0 => .number hl (h0 ▸ hx)) hinv hf rfl rfl fun D h hr => ?_
      refine step_read (hinv.congr rfl (Nat.le_add_right _ _)) fun lit => ?_
      rw [hx]
      exact assign_step (s := emit (scope ins l.intro s) l.dataset (alloc l.intro s)) (hinv.congr rfl (Nat.le_add_right _ _)) h hr _
    · exact .refl hinv rfl (Nat.le_refl _)
  | byteString l =>
    have hi := hcount 1 rfl
    obtain ⟨x, hx⟩ := hone
    simp only [layout]
    split
    · rw [data_eq (by rw [hi]; exact hcl.1) (by rw [hi]; exact hcl.2)]
      refine assigned (k := l.intro) (s1 := emit (scope ins l.intro s) l.dataset (alloc l.intro s)) hi (hlt l.intro l.dataset l.resource x hx hcl)
        (fun h0 => .byteString hl (h0 ▸ hx)) hinv hf rfl rfl fun D h hr => ?_
      refine step_read (hinv.congr rfl (Nat.le_add_right _ _)) fun lit => ?_
      rw [hx]
      exact assign_step (s := emit (scope ins l.intro s) l.dataset (alloc l.intro s)) (hinv.congr rfl (Nat.le_add_right _ _)) h hr _
    · exact .refl hinv rfl (Nat.le_refl _)
  | textString l =>
    have hi := hcount 1 rfl
    obtain ⟨x, hx⟩ := hone
    simp only [layout]
    split
    · rw [data_eq (by rw [hi]; exact hcl.1) (by rw [hi]; exact hcl.2)]
      refine assigned (k := l.intro) (s1 := emit (scope ins l.intro s) l.dataset (alloc l.intro s)) hi (hlt l.intro l.dataset l.resource x hx hcl)
        (fun h0 => .textString hl (h0 ▸ hx)) hinv hf rfl rfl fun D h hr => ?_
      refine step_read (hinv.congr rfl (Nat.le_add_right _ _)) fun lit => ?_
      rw [hx]
      exact assign_step (s := emit (scope ins l.intro s) l.dataset (alloc l.intro s)) (hinv.congr rfl (Nat.le_add_right _ _)) h hr _
    · exact .refl hinv rfl (Nat.le_refl _)
  | id l =>
    have hi := hcount 1 rfl
    obtain ⟨x, hx⟩ := hone
    simp only [layout]
    split
    · rw [ident_eq (by rw [hi]; exact hcl.1) (by rw [hi]; exact hcl.2)]
      split
      · refine assigned (k := l.intro) (s1 := emit (scope ins l.intro s) l.dataset (alloc l.intro s)) hi (hlt l.intro l.dataset l.resource x hx hcl) (fun h0 => .id hl (h0 ▸ hx))
          hinv hf rfl rfl fun D h hr => ?_
        rw [hx]
        exact assign_step (s := emit (scope ins l.intro s) l.dataset (alloc l.intro s)) (hinv.congr rfl (Nat.le_add_right _ _)) h hr _
      · exact .refl hinv rfl (Nat.le_add_right _ _)
    · exact .refl hinv rfl (Nat.le_refl _)
  | sum l =>
    have hi := hcount _ rfl
    simp only [layout]
    rw [intro_emit (env := .root ins) (by rw [Env.flat, hi]; exact hcl.1)]
    refine composite (k := l.intro) (s1 := emit (scope ins l.intro s) l.dataset (alloc l.intro s)) hl (by rw [hi]; rfl) hinv hinj hf rfl rfl fun hinv' hI hF => ?_
    have hlen : (Env.child (.root ins) (freshList s.fresh l.intro)).flat.length = l.input + l.intro := by
      rw [length_flat_child, Env.flat, hi]
    refine (variants_step hr (by rw [hlen]; exact hcl.2) hone.1 (by rw [hlen]; exact hone.2) (hI.mono ?_) hv none _ hinv' (hF.mono ?_)).mono ?_
    · rintro x ⟨y, hy, h⟩; exact ⟨_, List.mem_map_of_mem hy, h⟩
    · rintro r ⟨y, hy, -, h⟩; exact h.mono fun x hx => ⟨_, List.mem_map_of_mem hy, hx⟩
    · rintro r ⟨y, hy, -, h⟩; exact h.mono fun x hx => ⟨_, List.mem_map_of_mem hy, hx⟩
  | product l =>
    have hi := hcount _ rfl
    simp only [layout]
    split
    · rename_i m
      rw [intro_emit (env := .root ins) (by rw [Env.flat, hi]; exact hcl.1)]
      refine composite (k := l.intro) (s1 := emit (scope ins l.intro s) l.dataset (alloc l.intro s)) hl (by rw [hi]; rfl) hinv hinj hf rfl rfl fun hinv' hI hF => ?_
      have hlen : (Env.child (.root ins) (freshList s.fresh l.intro)).flat.length = l.input + l.intro := by
        rw [length_flat_child, Env.flat, hi]
      have hmem : ∀ e ∈ l.fields, e.2.value ∈ (Layout.product l).formats := fun e he => List.mem_map.2 ⟨e, he, rfl⟩
      cases hv with
      | map _ hk hvs =>
      have h1 := (entries_step (graph := g) hr (by rw [hlen]; exact hcl.2) hone.1 (by rw [hlen]; exact hone.2) (hI.mono fun x ⟨e, he, h⟩ => ⟨_, hmem e he, h⟩)
        (RoundTrip.SortedKeys.nodup hk) hvs _ hinv' (hF.mono fun r ⟨e, he, _, h⟩ => h.mono fun x hx => ⟨_, hmem e he, hx⟩)).mono
        (D' := Img (Env.child (.root ins) (freshList s.fresh l.intro)).flat fun x => ∃ fmt ∈ (Layout.product l).formats, fmt.AssignsVar c.reg x)
        fun r ⟨e, he, _, h⟩ => h.mono fun x hx => ⟨_, hmem e he, hx⟩
      have hreq : ∀ (fs : List (Value × Field Term)) (s : DeState), (requireKeys ref m fs s).2 = s := by
        intro fs
        induction fs with
        | nil => intro s; rfl
        | cons e fs ih =>
          intro s
          unfold requireKeys
          split
          · rfl
          · exact ih s
      unfold DeM.bind
      rw [show scope (Env.root ins).flat l.intro s = scope ins l.intro s from rfl]
      generalize entries rec g _ l.fields m _ = o at h1 ⊢
      obtain ⟨a | e | _ | _, s'⟩ := o
      · show Step _ _ (requireKeys ref m l.fields s').2
        rw [hreq]
        exact h1
      all_goals exact h1
    · exact .refl hinv rfl (Nat.le_refl _)
  | unordered l =>
    have hi := hcount _ rfl
    simp only [layout]
    split
    · rw [intro_emit (env := .root ins) (by rw [Env.flat, hi]; exact hcl.1)]
      have hlen : (Env.child (.root ins) (freshList s.fresh l.intro)).flat.length = l.input + l.intro := by
        rw [length_flat_child, Env.flat, hi]
      cases hv with
      | list _ hvs =>
      refine composite (k := l.intro) (s1 := emit (scope ins l.intro s) l.dataset (alloc l.intro s)) hl (by rw [hi]; rfl) hinv hinj hf rfl rfl fun hinv' hI hF => ?_
      refine (items_step hr ?_ hone.1 ?_ hvs _ hinv').mono fun r h => h.elim
      · rw [hlen]; exact hcl.2
      · rw [hlen]; exact hone.2
    · exact .refl hinv rfl (Nat.le_refl _)
  | ordered l =>
    have hi := hcount _ rfl
    simp only [layout]
    split
    · have hlen : (Env.child (.root ins) (freshList s.fresh l.intro)).flat.length = l.input + l.intro := by
        rw [length_flat_child, Env.flat, hi]
      rw [intro_emit (env := .root ins) (by rw [Env.flat, hi]; exact hcl.1), readPattern_bind (by rw [hlen]; exact hcl.2.1)]
      cases hv with
      | list _ hvs =>
      refine composite (k := l.intro) (s1 := emit (scope ins l.intro s) l.dataset (alloc l.intro s)) hl (by rw [hi]; rfl) hinv hinj hf rfl rfl fun hinv' hI hF => ?_
      refine (nodes_step hr ?_ ?_ hone.1 ?_ hvs _ _ hinv').mono fun r h => h.elim
      · rw [hlen]; exact hcl.2.2.1
      · rw [hlen]; exact hcl.2.2.2
      · rw [hlen]; exact hone.2
    · exact .refl hinv rfl (Nat.le_refl _)
  | sized l =>
    have hi := hcount _ rfl
    simp only [layout]
    split
    · rw [intro_emit (env := .root ins) (by rw [Env.flat, hi]; exact hcl.1)]
      have hlen : (Env.child (.root ins) (freshList s.fresh l.intro)).flat.length = l.input + l.intro := by
        rw [length_flat_child, Env.flat, hi]
      cases hv with
      | list _ hvs =>
      refine composite (k := l.intro) (s1 := emit (scope ins l.intro s) l.dataset (alloc l.intro s)) hl (by rw [hi]; rfl) hinv hinj hf rfl rfl fun hinv' hI hF => ?_
      refine (sizedItems_step hr (by rw [hlen]; exact hcl.2) hone.1 (by rw [hlen]; exact hone.2) (hI.mono ?_) hvs _ hinv' (hF.mono ?_)).mono ?_
      · rintro x ⟨y, hy, h⟩; exact ⟨_, List.mem_map_of_mem hy, h⟩
      · rintro r ⟨y, hy, h⟩; exact h.mono fun x hx => ⟨_, List.mem_map_of_mem hy, hx⟩
      · rintro r ⟨y, hy, h⟩; exact h.mono fun x hx => ⟨_, List.mem_map_of_mem hy, hx⟩
    · exact .refl hinv rfl (Nat.le_refl _)

theorem layout_dead {c : DeCtx} {l : Layout Term} {v : Value} (h : l.HeadMismatch v) {g : Option IRes} {ref : Term} {ins : List IRes} :
    (layout c rec v g ref ins l s).2 = s := by
  cases l with
  | never => rfl
  | always => exact h.elim
  | sum l => exact h.elim
  | unit l => simp only [layout]; rw [if_neg h]; rfl
  | _ =>
    simp only [layout]
    split
    · exact absurd rfl (h _)
    · rfl

theorem recOne (c : DeCtx) (hc : c.reg.Closed) (ho : c.reg.OneTerm) (n : Nat) : RecOne c.reg (dehydrateWith c n) := by
  induction n with
  | zero => exact ⟨fun v g ref ins s _ hinv _ _ => .refl hinv rfl (Nat.le_refl _), fun _ _ _ _ _ _ => rfl⟩
  | succ n ih =>
    constructor
    · intro v g ref ins s hv hinv hinj hf
      unfold dehydrateWith
      cases hl : c.reg ref with
      | none => exact .refl hinv rfl (Nat.le_refl _)
      | some l =>
        simp only
        split
        · exact .refl hinv rfl (Nat.le_refl _)
        · rename_i hcount
          refine layout_step ih hl (hc _ _ hl) (ho _ _ hl) hv ?_ hinv hinj hf
          intro k hk
          rw [hk, Option.any_some, decide_eq_true_eq, not_not] at hcount
          exact hcount.symm
    · intro v g ref ins s hd
      unfold dehydrateWith
      cases hl : c.reg ref with
      | none => rfl
      | some l =>
        simp only
        split
        · rfl
        · exact layout_dead (hd l hl)

/-- No resource is given two terms. -/
theorem no_conflict (c : DeCtx) (hc : c.reg.Closed) (ho : c.reg.OneTerm) (n : Nat) {v : Value} (hv : v.Sorted) (g : Option IRes) (ref : Term)
    (count : Nat) : ¬ Conflict (dehydrateWith c n v g ref ((List.range count).map .input) ⟨[], [], 0⟩).2 := by
  have hinj : Inj ((List.range count).map IRes.input) (Assigns c.reg ref) := by
    intro x x' r _ _ h h'
    rw [List.getElem?_map, Option.map_eq_some_iff] at h h'
    obtain ⟨i, hi, rfl⟩ := h
    obtain ⟨j, hj, e⟩ := h'
    injection e with e
    subst e
    rw [List.getElem?_eq_some_iff] at hi hj
    obtain ⟨_, hi⟩ := hi
    obtain ⟨_, hj⟩ := hj
    rw [List.getElem_range] at hi hj
    omega
  have hinput : ∀ r, Targets c.reg ref ((List.range count).map .input) r → ∃ i, r = .input i := by
    rintro r ⟨x, _, h⟩
    rw [List.getElem?_map, Option.map_eq_some_iff] at h
    obtain ⟨i, -, rfl⟩ := h
    exact ⟨i, rfl⟩
  have h := ((recOne c hc ho n).step v g ref _ ⟨[], [], 0⟩ hv ⟨by simp, by simp, by simp⟩ hinj
    ⟨by simp, fun t ht => (hinput _ ht).elim fun _ h => (nomatch h), fun i ht => (hinput _ ht).elim fun _ h => (nomatch h)⟩).inv
  rintro ⟨r, t, t', h1, hne, h2⟩
  rcases h2 with rfl | h2
  · exact h.plain _ _ _ h1 rfl
  · exact hne (h.functional _ _ _ h1 h2)

end Verif.Dehydrate.OneTerm
