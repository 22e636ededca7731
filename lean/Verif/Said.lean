import Verif.ReadBackSpec
import Verif.Kept

/-! # The dataset says what was written -/

set_option linter.unusedSectionVars false
set_option linter.unusedSimpArgs false

namespace Verif.Keeping

open Verif.Dehydrate Verif.RoundTrip Verif.Reproduce

variable {c : DeCtx} {F : DeState} {f : IRes → Term} {ds : List (Quad Term)}
  {le : TypedValue Term → TypedValue Term → Bool}

/-- What was written by `rec` is said, as `S`. -/
def RecSays (c : DeCtx) (F : DeState) (f : IRes → Term) (S : Option Term → Term → List Term → Value → Prop) (rec : Rec) : Prop :=
  ∀ g ref dins v s s', rec v g ref dins s = (.ok (), s') → Extends s' F → (∀ r ∈ dins, NotEnd c.reg r) →
    S none ref (dins.map f) v

variable {S : Option Term → Term → List Term → Value → Prop} {rec : Rec}

theorem get_append_some {σ τ : Subst Term} {x : Nat} {r : Term} (h : σ.get x = some r) : (σ ++ τ).get x = some r := by
  have hlt := get_lt h
  unfold Subst.get at h ⊢
  rw [List.getElem?_append_left hlt]
  exact h

/-- The variables that are bound once the own patterns and those of a part are matched. -/
theorem bound_part {dins : List IRes} {k : Nat} {own pats : List (QuadPat Term)} {σ τ rest : Subst Term}
    (h1 : IsMatch ds ((dins.map f).map some ++ List.replicate k none) (inGraph none own) σ)
    (h2 : IsMatch ds (σ ++ rest) (inGraph none pats) τ) {x : Nat} (hx : boundVars dins.length (own ++ pats) x) :
    ∃ r, τ.get x = some r := by
  have key : (∃ r, σ.get x = some r) → ∃ r, τ.get x = some r := fun ⟨r, hr⟩ => ⟨r, h2.keeps x r (get_append_some hr)⟩
  rcases hx with hx | hx
  · refine key (Hydrate.IsMatch.bound h1 (.inl ⟨f dins[x], ?_⟩))
    refine get_append_some ?_
    rw [Reproduce.get_inputs]
    simp [hx]
  · simp only [patsVars, List.flatMap_append, List.mem_append] at hx
    rcases hx with hx | hx
    · exact key (Hydrate.IsMatch.bound h1 (.inr hx))
    · exact Hydrate.IsMatch.bound h2 (.inr hx)

theorem bound_own {dins : List IRes} {k : Nat} {own : List (QuadPat Term)} {σ : Subst Term}
    (h1 : IsMatch ds ((dins.map f).map some ++ List.replicate k none) (inGraph none own) σ) {x : Nat}
    (hx : boundVars dins.length own x) : ∃ r, σ.get x = some r := by
  rcases hx with hx | hx
  · refine Hydrate.IsMatch.bound h1 (.inl ⟨f dins[x], ?_⟩)
    refine get_append_some ?_
    rw [Reproduce.get_inputs]
    simp [hx]
  · exact Hydrate.IsMatch.bound h1 (.inr hx)

theorem denotes_inst (W : World c F f ds) {ρ : List IRes} {σ : Subst Term} (hst : St f ρ σ) {p : Pattern Term}
    (hb : ∀ x ∈ p.vars, ∃ r, σ.get x = some r) : p.Denotes σ.get (f (patInst ρ p)) := by
  cases p with
  | res t => exact W.term t
  | var y =>
    obtain ⟨r, hr⟩ := hb y (by simp [Pattern.vars])
    have := (hst.get y r hr).1
    change σ.get y = some (f (ρ.getD y (.input 0)))
    rw [this, hr]

/-- A sub-value. -/
theorem sub_says (W : World c F f ds) (hrec : RecSays c F f S rec) {fmt : ValueFormat Term}
    (hg : ∀ p, fmt.graph ≠ some (some p)) {ρ : List IRes} {σ : Subst Term} (hst : St f ρ σ) {g : Option IRes} {v : Value}
    {s s' : DeState} (hrun : call rec g fmt ρ v s = (.ok (), s')) (hF : Extends s' F)
    (hend : ∀ p ∈ fmt.input, NotEnd c.reg (patInst ρ p)) (hb : ∀ p ∈ fmt.input, ∀ x ∈ p.vars, ∃ r, σ.get x = some r) :
    SubSays S none fmt σ v := by
  have hgr : GraphDenotes none fmt.graph σ none := by
    unfold GraphDenotes
    cases hfg : fmt.graph with
    | none => rfl
    | some o =>
      cases o with
      | none => rfl
      | some p => exact absurd hfg (hg p)
  have hins : List.Forall₂ (fun p r => p.Denotes σ.get r) fmt.input ((fmt.input.map (patInst ρ)).map f) := by
    rw [List.map_map, List.forall₂_map_right_iff, List.forall₂_same]
    exact fun p hp => denotes_inst W hst (hb p hp)
  refine ⟨_, _, hins, hgr, hrec _ _ _ _ _ _ hrun hF ?_⟩
  intro r hr
  obtain ⟨p, hp, rfl⟩ := List.mem_map.1 hr
  exact hend p hp

/-- A part of a value: its pattern has a match, and it is said. -/
theorem part_says (W : World c F f ds) (hrec : RecSays c F f S rec) {σ₀ : Subst Term} {v : Value} {pats : List (QuadPat Term)}
    {fmt : ValueFormat Term} (hg : ∀ p, fmt.graph ≠ some (some p)) {ρ : List IRes} (hst : St f ρ σ₀)
    (hcl : PatsBelow ρ.length pats) (hq : ∀ p ∈ pats, quadInst ρ p ∈ F.out) {g : Option IRes}
    {s s' : DeState} (hrun : call rec g fmt ρ v s = (.ok (), s')) (hF : Extends s' F)
    (hend : ∀ p ∈ fmt.input, NotEnd c.reg (patInst ρ p))
    (hb : ∀ τ, IsMatch ds σ₀ (inGraph none pats) τ → ∀ p ∈ fmt.input, ∀ x ∈ p.vars, ∃ r, τ.get x = some r) :
    IsMatch ds σ₀ (inGraph none pats) (written f ρ σ₀ pats) ∧ SubSays S none fmt (written f ρ σ₀ pats) v := by
  have hm : IsMatch ds σ₀ (inGraph none pats) (written f ρ σ₀ pats) := by
    rw [inGraph_none]
    exact match_written W hst hcl hq
  exact ⟨hm, sub_says W hrec hg (written_stands hst) hrun hF hend (hb _ hm)⟩

/-- The fields of a record. -/
theorem entries_says (W : World c F f ds) (hrec : RecSays c F f S rec) (hext : RecExt rec)
    {l : ProductLayout Term} {dins : List IRes} {σ : Subst Term}
    (H : IsMatch ds ((dins.map f).map some ++ List.replicate l.intro none) (inGraph none l.dataset) σ)
    {g : Option IRes} {env : Env IRes}
    (hcl : ∀ e ∈ l.fields, PatsBelow (env.flat.length + e.2.intro) e.2.dataset ∧ e.2.value.Below (env.flat.length + e.2.intro))
    (hg : ∀ e ∈ l.fields, ∀ p, e.2.value.graph ≠ some (some p))
    (hend : ∀ e ∈ l.fields, ∀ ρ : List IRes, (∀ r ∈ ρ, NotEnd c.reg r) → ∀ p ∈ e.2.value.input, NotEnd c.reg (patInst ρ p))
    (hρ : ∀ r ∈ env.flat, NotEnd c.reg r) (hbind : (Layout.product l).Binds) (hlen : dins.length = l.input)
    (hst : St f env.flat σ) {m : List (Value × Value)}
    {s s' : DeState} (hrun : entries rec g env l.fields m s = (.ok (), s')) (hF : Extends s' F) :
    ∀ k v, (k, v) ∈ m → ∃ fd τ, (k, fd) ∈ l.fields ∧
      IsMatch ds (σ ++ List.replicate fd.intro none) (inGraph none fd.dataset) τ ∧ SubSays S none fd.value τ v := by
  induction m generalizing s with
  | nil => intro k v h; exact nomatch h
  | cons e m ih =>
    obtain ⟨k, v⟩ := e
    cases hlk : lookup k l.fields with
    | none =>
      unfold entries at hrun
      rw [hlk] at hrun
      exact nomatch hrun
    | some fd =>
      have hin : (k, fd) ∈ l.fields := by
        unfold lookup at hlk
        rw [Option.map_eq_some_iff] at hlk
        obtain ⟨⟨k', fd'⟩, h1, h2⟩ := hlk
        have h3 := List.mem_of_find?_eq_some h1
        have h4 := List.find?_some h1
        simp only [beq_iff_eq] at h2 h4
        subst h2
        have : k' = k := by simpa using h4
        rwa [this] at h3
      rw [entries_cons hlk (hcl _ hin).1 (hcl _ hin).2, DeM.bind_eq_ok] at hrun
      obtain ⟨⟨⟩, s1, h1, h2⟩ := hrun
      have hF1 : Extends s1 F := by
        refine extends_trans ?_ hF
        have := pres_entries extends_rel hext g env l.fields m s1
        rwa [h2] at this
      intro k' v' hkv
      rcases List.mem_cons.1 hkv with he | hkv
      · injection he with e1 e2
        subst e1 e2
        exact ⟨fd, _, hin, part_says W hrec (hg _ hin)
          (stands_scope hst fd.intro s) (by rw [length_scope]; exact (hcl _ hin).1)
          (emitted (extends_trans (call_ext hext h1) hF1)) h1 hF1
          (hend _ hin _ (scope_notEnd hρ _ _))
          (fun τ hτ p hp x hx => bound_part H hτ (hlen ▸ (hbind _ hin).1 p hp x hx))⟩
      · exact ih h2 k' v' hkv

/-- The items of a set. -/
theorem items_says (W : World c F f ds) (hrec : RecSays c F f S rec) (hext : RecExt rec)
    {l : UnorderedLayout Term} {dins : List IRes} {σ : Subst Term}
    (H : IsMatch ds ((dins.map f).map some ++ List.replicate l.intro none) (inGraph none l.dataset) σ)
    {g : Option IRes} {env : Env IRes} (hcl : l.item.Closed (env.flat.length + l.item.intro))
    (hg : ∀ p, l.item.value.graph ≠ some (some p))
    (hend : ∀ ρ : List IRes, (∀ r ∈ ρ, NotEnd c.reg r) → ∀ p ∈ l.item.value.input, NotEnd c.reg (patInst ρ p))
    (hρ : ∀ r ∈ env.flat, NotEnd c.reg r) (hbind : (Layout.unordered l).Binds) (hlen : dins.length = l.input)
    (hst : St f env.flat σ) {vs : List Value} {s s' : DeState}
    (hrun : items rec g env l.item vs s = (.ok (), s')) (hF : Extends s' F) :
    ∀ v ∈ vs, ∃ τ, IsMatch ds (σ ++ List.replicate l.item.intro none) (inGraph none l.item.dataset) τ ∧
      SubSays S none l.item.value τ v := by
  induction vs generalizing s with
  | nil => intro v h; exact nomatch h
  | cons v vs ih =>
    rw [items_cons hcl, DeM.bind_eq_ok] at hrun
    obtain ⟨⟨⟩, s1, h1, h2⟩ := hrun
    have hF1 : Extends s1 F := by
      refine extends_trans ?_ hF
      have := pres_items extends_rel hext g env l.item vs s1
      rwa [h2] at this
    intro v' hv
    rcases List.mem_cons.1 hv with rfl | hv
    · exact ⟨_, part_says W hrec hg (stands_scope hst l.item.intro s) (by rw [length_scope]; exact hcl.1)
        (emitted (extends_trans (call_ext hext h1) hF1)) h1 hF1 (hend _ (scope_notEnd hρ _ _))
        (fun τ hτ p hp x hx => bound_part H hτ (hlen ▸ hbind.1 p hp x hx))⟩
    · exact ih h2 v' hv

/-- The items of a tuple. -/
theorem sized_says (W : World c F f ds) (hrec : RecSays c F f S rec) (hext : RecExt rec)
    {l : SizedLayout Term} {dins : List IRes} {σ : Subst Term}
    (H : IsMatch ds ((dins.map f).map some ++ List.replicate l.intro none) (inGraph none l.dataset) σ)
    {g : Option IRes} {env : Env IRes} {is : List (ItemLayout Term)} (his : ∀ i ∈ is, i ∈ l.items)
    (hcl : ∀ item ∈ is, item.Closed (env.flat.length + item.intro))
    (hg : ∀ item ∈ is, ∀ p, item.value.graph ≠ some (some p))
    (hend : ∀ item ∈ is, ∀ ρ : List IRes, (∀ r ∈ ρ, NotEnd c.reg r) → ∀ p ∈ item.value.input, NotEnd c.reg (patInst ρ p))
    (hρ : ∀ r ∈ env.flat, NotEnd c.reg r) (hbind : (Layout.sized l).Binds) (hlen : dins.length = l.input)
    (hst : St f env.flat σ) {vs : List Value}
    {s s' : DeState} (hrun : sizedItems rec g env vs is s = (.ok (), s')) (hF : Extends s' F) :
    List.Forall₂ (fun (item : ItemLayout Term) v => ∃ τ,
        IsMatch ds (σ ++ List.replicate item.intro none) (inGraph none item.dataset) τ ∧
        SubSays S none item.value τ v) is vs := by
  induction is generalizing vs s with
  | nil =>
    cases vs with
    | nil => exact .nil
    | cons v vs => unfold sizedItems at hrun; exact nomatch hrun
  | cons item is ih =>
    cases vs with
    | nil => unfold sizedItems at hrun; exact nomatch hrun
    | cons v vs =>
      rw [List.forall_mem_cons] at hcl hg his
      rw [sizedItems_cons hcl.1, DeM.bind_eq_ok] at hrun
      obtain ⟨⟨⟩, s1, h1, h2⟩ := hrun
      have hF1 : Extends s1 F := by
        refine extends_trans ?_ hF
        have := pres_sizedItems extends_rel hext g env vs is s1
        rwa [h2] at this
      refine .cons ⟨_, part_says W hrec hg.1
        (stands_scope hst item.intro s) (by rw [length_scope]; exact hcl.1.1)
        (emitted (extends_trans (call_ext hext h1) hF1)) h1 hF1 (hend _ (by simp) _ (scope_notEnd hρ _ _))
        (fun τ hτ p hp x hx => bound_part H hτ (hlen ▸ (hbind _ his.1).1 p hp x hx))⟩
        (ih his.2 hcl.2 hg.2 (fun i hi => hend i (by simp [hi])) h2)

/-- The items of a list. -/
theorem nodes_says (W : World c F f ds) (hrec : RecSays c F f S rec) (hext : RecExt rec)
    {l : OrderedLayout Term} {dins : List IRes} {σ : Subst Term}
    (H : IsMatch ds ((dins.map f).map some ++ List.replicate l.intro none) (inGraph none l.dataset) σ)
    {g : Option IRes} {env : Env IRes}
    (hct : l.tail.Below env.flat.length) (hcl : l.node.Closed (env.flat.length + 2 + l.node.intro))
    (hg : ∀ p, l.node.value.graph ≠ some (some p))
    {t : Term} (htl : l.tail = .res t) (ht : c.reg.EndsLists t)
    (hfar : ∀ t, c.reg.EndsLists t → ∀ r, f r = t → r = .term t)
    (hend : ∀ p ∈ l.node.value.input, (∀ t, c.reg.EndsLists t → p ≠ .res t) ∧ p ≠ .var (env.flat.length + 1))
    (hρ : ∀ r ∈ env.flat, NotEnd c.reg r) (hbind : (Layout.ordered l).Binds) (hlen : dins.length = l.input)
    (henv : env.flat.length = l.input + l.intro)
    (hst : St f env.flat σ) {head : IRes} {vs : List Value}
    {s s' : DeState}
    (hhead : vs ≠ [] → NotEnd c.reg head) (hlast : vs = [] → f head = t)
    (hrun : nodes rec g env l.node l.tail head vs s = (.ok (), s')) (hF : Extends s' F) :
    ChainSays ds S none l.node σ t (f head) vs := by
  induction vs generalizing s head with
  | nil =>
    rw [hlast rfl]
    exact .nil
  | cons v vs ih =>
    rw [nodes_cons hct hcl, DeM.bind_eq_ok] at hrun
    obtain ⟨⟨⟩, s1, h1, h2⟩ := hrun
    have hF1 : Extends s1 F := by
      refine extends_trans ?_ hF
      have := pres_nodes extends_rel hext g env l.node l.tail (nextNode env.flat l.tail vs s) vs s1
      rwa [h2] at this
    have hst0 := stands_pair hst head (nextNode env.flat l.tail vs s)
    have hst1 := stands_scope hst0 l.node.intro (allocNext vs s)
    have hσl : σ.length = l.input + l.intro := by rw [hst.length, henv]
    have hbound : ∀ τ, IsMatch ds (σ ++ [some (f head), none] ++ List.replicate l.node.intro none) (inGraph none l.node.dataset) τ →
        ∀ p ∈ l.node.value.input, ∀ x ∈ p.vars, ∃ r, τ.get x = some r := by
      intro τ hτ p hp x hx
      rcases hbind.2.2.1.1 p hp x hx with h | h
      · rw [List.append_assoc] at hτ
        exact bound_part H hτ (hlen ▸ h)
      · refine ⟨f head, hτ.keeps x _ (get_append_some ?_)⟩
        subst h
        unfold Subst.get
        rw [List.getElem?_append_right (by omega), hσl]
        simp
    obtain ⟨hu, hw⟩ := part_says W hrec hg hst1
      (by rw [length_scope]; simpa [Nat.add_assoc] using hcl.1)
      (emitted (extends_trans (call_ext hext h1) hF1)) h1 hF1 (by
        intro p hp
        obtain ⟨e1, e2⟩ := hend p hp
        refine inst_notEnd e1 fun y hy => ?_
        have hy' : y ≠ env.flat.length + 1 := fun h => e2 (by rw [hy, h])
        rw [List.getD_eq_getElem?_getD]
        cases hr : (scope (env.flat ++ [head, nextNode env.flat l.tail vs s]) l.node.intro (allocNext vs s))[y]? with
        | none => intro t _ he; exact nomatch he
        | some r =>
          simp only [Option.getD_some]
          unfold scope at hr
          by_cases hlt : y < env.flat.length
          · rw [List.getElem?_append_left (by simp; omega), List.getElem?_append_left hlt] at hr
            exact hρ r (List.mem_of_getElem? hr)
          · by_cases hq : y = env.flat.length
            · subst hq
              rw [List.getElem?_append_left (by simp), List.getElem?_append_right (Nat.le_refl _)] at hr
              simp only [Nat.sub_self, List.getElem?_cons_zero, Option.some.injEq] at hr
              subst hr
              exact hhead (by simp)
            · rw [List.getElem?_append_right (by simp; omega)] at hr
              obtain ⟨i, rfl, _, _⟩ := mem_freshList.1 (List.mem_of_getElem? hr)
              intro t _ he; exact nomatch he) hbound
    obtain ⟨nx, hnx⟩ := Hydrate.IsMatch.bound hu (x := σ.length + 1) (.inr (by rw [hσl]; exact hbind.2.2.2))
    have hnext : f (nextNode env.flat l.tail vs s) = nx := by
      have := ((written_stands (pats := l.node.dataset) hst1).get _ _ hnx).1
      rw [scope_getD_old (by simp [hst.length]), List.getD_eq_getElem?_getD, hst.length] at this
      simpa using this
    have hws := ih (fun hvs => by
        unfold nextNode
        rw [if_neg (by simpa using hvs)]
        intro t _ he; exact nomatch he)
      (fun hvs => by
        subst hvs
        have : nextNode env.flat l.tail [] s = .term t := by simp [nextNode, htl, patInst]
        rw [this, W.term]) h2
    rw [hnext] at hws
    exact .cons (fun he => hhead (by simp) t ht (hfar t ht _ he)) hu hw hnx hws

/-- The own patterns of a layout. -/
theorem own_says (W : World c F f ds) {l : Layout Term} {dins : List IRes}
    {s : DeState} (hb : PatsBelow (dins.length + l.own.1) l.own.2)
    (hF : Extends (emit (scope dins l.own.1 s) l.own.2 (alloc l.own.1 s)) F) :
    ∃ σ, l.OwnMatch ds none (dins.map f) σ ∧ St f (scope dins l.own.1 s) σ := by
  have hst := stands_scope (stands_inputs (P := fun _ => True) (h := f) (dins := dins) rfl fun _ _ => trivial) l.own.1 s
  refine ⟨_, ?_, written_stands (pats := l.own.2) hst⟩
  unfold Layout.OwnMatch
  rw [inGraph_none]
  exact match_written W hst (by rw [length_scope]; exact hb) (emitted hF)

theorem data_says {α : Type} (W : World c F f ds) {parse : String → String → Out (HyError Term) α} {l : DataLayout Term}
    {ll : Layout Term} (hown : ll.own = (l.intro, l.dataset)) {dins : List IRes}
    (hlen : dins.length = 1) (hbind : l.resource.BoundIn (boundVars 1 l.dataset))
    (h1 : PatsBelow (1 + l.intro) l.dataset) (h2 : l.resource.Below (1 + l.intro))
    {lit : List String → Out DeError RdfLit} {s s' : DeState} (hrun : data dins l lit s = (.ok (), s'))
    (hF : Extends s' F) {a : α}
    (hlit : ∀ iris wl, lit iris = .ok wl → ∃ i, i ∈ iris ∧ wl.type = .any i ∧ parse wl.value i = .ok a) :
    ∃ σ, ll.OwnMatch ds none (dins.map f) σ ∧ DataSays (HyCtx.ofTerms c.reg c.xsd le ds) parse l σ a := by
  rw [← hlen] at h1 h2 hbind
  rw [data_eq h1 h2, DeM.bind_eq_ok] at hrun
  obtain ⟨wl, s1, h3, h4⟩ := hrun
  rw [DeM.read_eq_ok] at h3
  obtain ⟨h3, rfl⟩ := h3
  obtain ⟨hout, hfr, hmem⟩ := mem_assign h4
  have hF1 : Extends (emit (scope dins l.intro s) l.dataset (alloc l.intro s)) F :=
    extends_trans ⟨fun q hq => by rw [hout]; exact hq, fun e he => (hmem e).2 (.inl he), by rw [hfr]⟩ hF
  obtain ⟨σ, hu, hst⟩ := own_says W (l := ll) (s := s) (by rw [hown]; exact h1) (by rw [hown]; exact hF1)
  have hu' := hu
  unfold Layout.OwnMatch at hu'
  rw [hown] at hu' hst
  obtain ⟨i, hi, htype, hparse⟩ := hlit _ _ h3
  have hdt : l.datatype = .iri i := by
    unfold irisOf at hi
    rcases List.mem_append.1 hi with hi | hi
    · cases hd : l.datatype with
      | iri j => rw [hd] at hi; simp at hi; rw [hi]
      | blank _ => rw [hd] at hi; simp at hi
      | literal _ => rw [hd] at hi; simp at hi
    · rw [List.mem_filterMap] at hi
      obtain ⟨⟨r, t⟩, he, hi⟩ := hi
      simp only at hi
      split at hi
      · rename_i hr
        subst hr
        split at hi
        · injection hi with hi
          subst hi
          have := W.assigned _ _ (hF1.terms _ he)
          rw [W.term] at this
          exact this
        · exact nomatch hi
      · exact nomatch hi
  have hr : f (patInst (scope dins l.intro s) l.resource) = .literal wl :=
    W.assigned _ _ (hF.terms _ ((hmem _).2 (.inr rfl)))
  refine ⟨σ, hu, .literal wl, wl, i, ?_, ?_, htype, hparse⟩
  · rw [← hr]
    exact denotes_inst W hst fun x hx => bound_own hu' (hbind x hx)
  · simp [HyCtx.ofTerms, hdt, htype]

/-- What was written with a layout is said for it. -/
theorem saying (c : DeCtx) (le : TypedValue Term → TypedValue Term → Bool) (laws : XsdLaws c.xsd) (W : World c F f ds)
    (R : Reg c True) (hbind : ∀ ref l, c.reg ref = some l → l.Binds)
    (hfar : ∀ t, c.reg.EndsLists t → ∀ r, f r = t → r = .term t) (n : Nat) :
    RecSays c F f (Says (HyCtx.ofTerms c.reg c.xsd le ds) n) (dehydrateWith c n) := by
  induction n with
  | zero => intro g ref dins v s s' hrun; exact nomatch hrun
  | succ n ihn =>
    intro g ref dins v s s' hrun hF hne
    have hext : RecExt (dehydrateWith c n) := fun v g ref ins s => pres_dehydrateWith extends_rel c n v g ref ins s
    have hE := R.ends trivial
    cases hl : c.reg ref with
    | none =>
      unfold dehydrateWith at hrun
      rw [hl] at hrun
      exact nomatch hrun
    | some l =>
    have hcount' : ∀ k, l.inputCount = some k → dins.length = k := by
      intro k hk
      by_contra hne'
      unfold dehydrateWith at hrun
      rw [hl] at hrun
      simp only [hk, Option.any_some, ne_eq, decide_eq_true_eq] at hrun
      rw [if_pos (fun h => hne' h.symm)] at hrun
      exact nomatch hrun
    have hcl := R.closed ref l hl
    have hgr := R.graph ref l hl
    have hb := hbind ref l hl
    have hcount : ∀ k, l.inputCount = some k → (dins.map f).length = k := fun k hk => by rw [List.length_map]; exact hcount' k hk
    rw [dehydrateWith_succ hl hcount'] at hrun
    suffices ∃ σ, l.OwnMatch ds none (dins.map f) σ ∧
        LayoutSays (HyCtx.ofTerms c.reg c.xsd le ds) (Says (HyCtx.ofTerms c.reg c.xsd le ds) n) none σ v l by
      obtain ⟨σ, hσ, h⟩ := this
      exact ⟨l, σ, hl, hcount, hσ, h⟩
    cases l with
    | never => exact nomatch hrun
    | always =>
      simp only [layout] at hrun
      injection hrun with _ hs
      subst hs
      obtain ⟨σ, hσ, -⟩ := own_says W (l := .always) (dins := dins) (s := s) (by intro q hq; exact nomatch hq) (by
        exact hF)
      exact ⟨σ, hσ, trivial⟩
    | unit l =>
      simp only [layout] at hrun
      split at hrun
      · rename_i hconst
        have h1 := hcount' 1 rfl
        rw [intro_bind, instDataset_eq (by rw [length_flat_child]; change PatsBelow (dins.length + _) _; rw [h1]; exact hcl)] at hrun
        injection hrun with _ hs
        subst hs
        obtain ⟨σ, hu, -⟩ := own_says W (l := .unit l) (dins := dins) (s := s) (by rw [h1]; exact hcl) hF
        exact ⟨σ, hu, hconst⟩
      · exact nomatch hrun
    | boolean l =>
      simp only [layout] at hrun
      split at hrun
      · rename_i b
        obtain ⟨σ, hσ, ha⟩ := data_says W (ll := .boolean l) rfl (hcount' 1 rfl) hb hcl.1 hcl.2 hrun hF (le := le)
          (parse := Hydrate.booleanValue (HyCtx.ofTerms c.reg c.xsd le ds)) (by
            intro iris wl hw
            unfold booleanLit at hw
            split at hw
            · rename_i i hi
              injection hw with hw
              subst hw
              refine ⟨i, List.mem_of_find?_eq_some hi, rfl, ?_⟩
              have := List.find?_some hi
              simp only [beq_iff_eq] at this
              subst this
              unfold Hydrate.booleanValue
              rw [if_pos (by rfl)]
              change Out.ofOption (c.xsd.parseBoolean (c.xsd.printBoolean b)) = _
              rw [laws.bool]
              rfl
            · exact nomatch hw)
        exact ⟨σ, hσ, b, ha, rfl⟩
      · exact nomatch hrun
    | number l =>
      simp only [layout] at hrun
      split at hrun
      · rename_i b
        obtain ⟨σ, hσ, ha⟩ := data_says W (ll := .number l) rfl (hcount' 1 rfl) hb hcl.1 hcl.2 hrun hF (le := le)
          (parse := Hydrate.numberValue (HyCtx.ofTerms c.reg c.xsd le ds)) (by
            intro iris wl hw
            unfold numberLit at hw
            split at hw
            · rename_i i hi
              split at hw
              · rename_i hp
                injection hw with hw
                subst hw
                refine ⟨i, List.mem_of_find?_eq_some hi, rfl, ?_⟩
                have := List.find?_some hi
                unfold Hydrate.numberValue
                rw [if_pos (by exact this)]
                change Out.ofOption (c.xsd.parseDecimal _) = _
                rw [laws.decimal _ _ hp]
                rfl
              · exact nomatch hw
            · exact nomatch hw)
        exact ⟨σ, hσ, b, ha, rfl⟩
      · exact nomatch hrun
    | byteString l =>
      simp only [layout] at hrun
      split at hrun
      · have h1 := hcount' 1 rfl
        rw [data_eq (by rw [h1]; exact hcl.1) (by rw [h1]; exact hcl.2), DeM.bind_eq_ok] at hrun
        obtain ⟨wl, s1, h3, h4⟩ := hrun
        rw [DeM.read_eq_ok] at h3
        exact nomatch h3.1
      · exact nomatch hrun
    | textString l =>
      simp only [layout] at hrun
      split at hrun
      · rename_i b
        obtain ⟨σ, hσ, ha⟩ := data_says W (ll := .textString l) rfl (hcount' 1 rfl) hb hcl.1 hcl.2 hrun hF (le := le)
          (parse := Hydrate.textStringValue) (by
            intro iris wl hw
            unfold textLit at hw
            split at hw
            · rename_i i is
              injection hw with hw
              subst hw
              exact ⟨i, by simp, rfl, rfl⟩
            · exact nomatch hw)
        exact ⟨σ, hσ, b, ha, rfl⟩
      · exact nomatch hrun
    | id l =>
      simp only [layout] at hrun
      split at hrun
      · rename_i text
        have h1 := hcount' 1 rfl
        replace hrun : ident c dins l text s = (.ok (), s') := hrun
        rw [ident_eq (by rw [h1]; exact hcl.1) (by rw [h1]; exact hcl.2)] at hrun
        split at hrun
        · obtain ⟨hout, hfr, hmem⟩ := mem_assign hrun
          have hF1 : Extends (emit (scope dins l.intro s) l.dataset (alloc l.intro s)) F :=
            extends_trans ⟨fun q hq => by rw [hout]; exact hq, fun e he => (hmem e).2 (.inl he), by rw [hfr]⟩ hF
          obtain ⟨σ, hu, hst⟩ := own_says W (l := .id l) (s := s) (by rw [h1]; exact hcl.1) hF1
          have hr : f (patInst (scope dins l.intro s) l.resource) = .iri text :=
            W.assigned _ _ (hF.terms _ ((hmem _).2 (.inr rfl)))
          refine ⟨σ, hu, .iri text, text, ?_, rfl, rfl⟩
          rw [← hr]
          exact denotes_inst W hst fun x hx => bound_own hu (h1 ▸ hb x hx)
        · exact nomatch hrun
      · exact nomatch hrun
    | product l =>
      have hlen := hcount' _ rfl
      simp only [layout] at hrun
      split at hrun
      · rename_i mv
        rw [intro_emit (by change PatsBelow (dins.length + _) _; rw [hlen]; exact hcl.1), DeM.bind_eq_ok] at hrun
        obtain ⟨⟨⟩, s1, h1, h2⟩ := hrun
        obtain rfl := requireKeys_state h2
        have hfl : (Env.child (.root dins) (freshList s.fresh l.intro)).flat = scope dins l.intro s := rfl
        have hx := pres_entries extends_rel hext g (.child (.root dins) (freshList s.fresh l.intro)) l.fields mv
          (emit (scope dins l.intro s) l.dataset (alloc l.intro s))
        have h1' : entries (dehydrateWith c n) g (.child (.root dins) (freshList s.fresh l.intro)) l.fields mv
          (emit (scope dins l.intro s) l.dataset (alloc l.intro s)) = (.ok (), s') := h1
        rw [h1'] at hx
        obtain ⟨σ, hu, hst⟩ := own_says W (l := .product l) (s := s) (by rw [hlen]; exact hcl.1) (extends_trans hx hF)
        refine ⟨σ, hu, mv, rfl, ?_, ?_⟩
        · exact entries_says W ihn hext hu (env := .child (.root dins) (freshList s.fresh l.intro))
            (by rw [hfl, length_scope, hlen]; exact hcl.2)
            (fun e he => hgr _ (List.mem_map_of_mem (f := fun e => e.2.value) he))
            (fun e he ρ hρ => format_notEnd R trivial hl (List.mem_map_of_mem (f := fun e => e.2.value) he) hρ)
            (by rw [hfl]; exact scope_notEnd hne _ _) hb hlen (by rw [hfl]; exact hst) h1 hF
        · intro k fd hf hreq
          obtain ⟨v, hkv⟩ := required_present h2 hf hreq
          exact List.mem_map_of_mem (f := Prod.fst) hkv
      · exact nomatch hrun
    | unordered l =>
      have hlen := hcount' _ rfl
      simp only [layout] at hrun
      split at hrun
      · rename_i vs
        rw [intro_emit (by change PatsBelow (dins.length + _) _; rw [hlen]; exact hcl.1)] at hrun
        have hfl : (Env.child (.root dins) (freshList s.fresh l.intro)).flat = scope dins l.intro s := rfl
        have hx := pres_items extends_rel hext g (.child (.root dins) (freshList s.fresh l.intro)) l.item vs
          (emit (scope dins l.intro s) l.dataset (alloc l.intro s))
        have hrun' : items (dehydrateWith c n) g (.child (.root dins) (freshList s.fresh l.intro)) l.item vs
          (emit (scope dins l.intro s) l.dataset (alloc l.intro s)) = (.ok (), s') := hrun
        rw [hrun'] at hx
        obtain ⟨σ, hu, hst⟩ := own_says W (l := .unordered l) (s := s) (by rw [hlen]; exact hcl.1) (extends_trans hx hF)
        exact ⟨σ, hu, vs, rfl, items_says W ihn hext hu (env := .child (.root dins) (freshList s.fresh l.intro))
          (by rw [hfl, length_scope, hlen]; exact hcl.2) (hgr _ (by simp [Layout.formats]))
          (fun ρ hρ => format_notEnd R trivial hl (by simp [Layout.formats]) hρ)
          (by rw [hfl]; exact scope_notEnd hne _ _) hb hlen (by rw [hfl]; exact hst) hrun hF⟩
      · exact nomatch hrun
    | ordered l =>
      have hlen := hcount' _ rfl
      simp only [layout] at hrun
      split at hrun
      · rename_i vs
        have hfl : (Env.child (.root dins) (freshList s.fresh l.intro)).flat = scope dins l.intro s := rfl
        rw [intro_emit (by change PatsBelow (dins.length + _) _; rw [hlen]; exact hcl.1),
          readPattern_bind (by rw [hfl, length_scope, hlen]; exact hcl.2.1)] at hrun
        have hx := pres_nodes extends_rel hext g (.child (.root dins) (freshList s.fresh l.intro)) l.node l.tail
          (patInst (Env.child (.root dins) (freshList s.fresh l.intro)).flat l.head) vs
          (emit (scope dins l.intro s) l.dataset (alloc l.intro s))
        have hrun' : nodes (dehydrateWith c n) g (.child (.root dins) (freshList s.fresh l.intro)) l.node l.tail
          (patInst (Env.child (.root dins) (freshList s.fresh l.intro)).flat l.head) vs
          (emit (scope dins l.intro s) l.dataset (alloc l.intro s)) = (.ok (), s') := hrun
        rw [hrun'] at hx
        obtain ⟨σ, hu, hst⟩ := own_says W (l := .ordered l) (s := s) (by rw [hlen]; exact hcl.1) (extends_trans hx hF)
        have hρ : ∀ r ∈ scope dins l.intro s, NotEnd c.reg r := scope_notEnd hne _ _
        obtain ⟨t, ht⟩ := hE.tail ref l hl
        refine ⟨σ, hu, vs, _, t, rfl, ?_, ?_, fun hvs' => nodes_says W ihn hext hu (env := .child (.root dins) (freshList s.fresh l.intro))
            (by rw [hfl, length_scope, hlen]; exact hcl.2.2.1) (by rw [hfl, length_scope, hlen]; exact hcl.2.2.2)
            (hgr _ (by simp [Layout.formats])) ht ⟨ref, l, hl, ht⟩ hfar
            (fun p hp => ⟨fun t ht he => hE.input ref _ hl l.node.value (by simp [Layout.formats]) t ht (he ▸ hp),
              fun he => hE.rest ref l hl (by
                rw [hfl, length_scope, hlen] at he
                exact he ▸ hp)⟩)
            (by rw [hfl]; exact hρ) hb hlen (by rw [hfl, length_scope, hlen]) (by rw [hfl]; exact hst)
            (fun _ => by
              rw [hfl]
              exact inst_notEnd (hE.head ref l hl) fun y _ => getD_notEnd hρ y)
            (fun h => absurd h hvs') hrun hF⟩
        · rw [hfl]
          exact denotes_inst W hst fun x hx => bound_own hu (hlen ▸ hb.1 x hx)
        · rw [ht]
          rfl
      · exact nomatch hrun
    | sized l =>
      have hlen := hcount' _ rfl
      simp only [layout] at hrun
      split at hrun
      · rename_i vs
        rw [intro_emit (by change PatsBelow (dins.length + _) _; rw [hlen]; exact hcl.1)] at hrun
        have hfl : (Env.child (.root dins) (freshList s.fresh l.intro)).flat = scope dins l.intro s := rfl
        have hx := pres_sizedItems extends_rel hext g (.child (.root dins) (freshList s.fresh l.intro)) vs l.items
          (emit (scope dins l.intro s) l.dataset (alloc l.intro s))
        have hrun' : sizedItems (dehydrateWith c n) g (.child (.root dins) (freshList s.fresh l.intro)) vs l.items
          (emit (scope dins l.intro s) l.dataset (alloc l.intro s)) = (.ok (), s') := hrun
        rw [hrun'] at hx
        obtain ⟨σ, hu, hst⟩ := own_says W (l := .sized l) (s := s) (by rw [hlen]; exact hcl.1) (extends_trans hx hF)
        exact ⟨σ, hu, vs, rfl, sized_says W ihn hext hu (env := .child (.root dins) (freshList s.fresh l.intro)) (fun _ h => h)
          (by rw [hfl, length_scope, hlen]; exact hcl.2)
          (fun i hi => hgr _ (List.mem_map_of_mem hi))
          (fun i hi ρ hρ => format_notEnd R trivial hl (List.mem_map_of_mem hi) hρ)
          (by rw [hfl]; exact scope_notEnd hne _ _) hb hlen (by rw [hfl]; exact hst) hrun hF⟩
      · exact nomatch hrun
    | sum l =>
      have hlen := hcount' _ rfl
      simp only [layout] at hrun
      rw [intro_emit (by change PatsBelow (dins.length + _) _; rw [hlen]; exact hcl.1)] at hrun
      have hfl : (Env.child (.root dins) (freshList s.fresh l.intro)).flat = scope dins l.intro s := rfl
      have hx := pres_variants extends_rel hext g (.child (.root dins) (freshList s.fresh l.intro)) v l.variants none
        (emit (scope dins l.intro s) l.dataset (alloc l.intro s))
      have hrun' : variants (dehydrateWith c n) g (.child (.root dins) (freshList s.fresh l.intro)) v l.variants none
        (emit (scope dins l.intro s) l.dataset (alloc l.intro s)) = (.ok (), s') := hrun
      rw [hrun'] at hx
      obtain ⟨σ, hu, hst⟩ := own_says W (l := .sum l) (s := s) (by rw [hlen]; exact hcl.1) (extends_trans hx hF)
      obtain ⟨-, -, hone⟩ := variants_kept hext (env := .child (.root dins) (freshList s.fresh l.intro))
        (by rw [hfl, length_scope, hlen]; exact hcl.2) hrun
      rw [hfl] at hone
      obtain ⟨j, z, hz, s1, s2, h1, h2, h3⟩ := hone rfl
      have hzm := List.mem_of_getElem? hz
      have hclz : PatsBelow ((scope dins l.intro s).length + z.intro) z.dataset := by
        rw [length_scope, hlen]
        exact (hcl.2 z hzm).1
      exact ⟨σ, hu, z, hzm, _, part_says W ihn
        (hgr _ (List.mem_map_of_mem hzm)) (stands_scope hst z.intro s1) (by rw [length_scope]; exact hclz)
        (fun p hp => hF.quads _ (h3 p hp)) h1 (extends_trans h2 hF)
        (format_notEnd R trivial hl (List.mem_map_of_mem hzm) (scope_notEnd (scope_notEnd hne _ _) _ _))
        (fun τ hτ p hp x hx => bound_part hu hτ (hlen ▸ (hb _ hzm).1 p hp x hx))⟩

end Verif.Keeping
