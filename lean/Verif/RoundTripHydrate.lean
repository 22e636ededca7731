import Verif.RoundTripRun
import Verif.HydrateOk

/-! # Hydrating a representation gives the tree back -/

set_option linter.unusedSectionVars false
set_option linter.unusedSimpArgs false

namespace Verif.RoundTrip

open Dehydrate

/-- The dataset `D` contains the image of the final state `F` by the naming `f`, which separates nodes, and says nothing else about
these nodes in its default graph. -/
structure Named (F : DeState) (N Occ : IRes → Prop) (f : IRes → Term) (D : List (Quad Term)) : Prop where
  contains : ∀ q ∈ F.out, q.map f ∈ D
  about : ∀ q' ∈ D, q'.g = none → ∀ a, N a → Occ a → q'.s = f a → ∃ q ∈ F.out, q' = q.map f
  literals : ∀ q' ∈ D, q'.g = none → ∀ l, q'.s ≠ .literal l
  nodup : D.Nodup
  term : ∀ t, f (.term t) = t
  assigned : ∀ r t, (r, t) ∈ F.terms → f r = t
  subj : ∀ q ∈ F.out, N q.s
  form : ∀ q ∈ F.out, (∃ p, q.p = .term p) ∧ q.g = none
  inj : ∀ a b, N a → N b → Occ a → Occ b → f a = f b → a = b
  occ : ∀ q ∈ F.out, Occ q.s ∧ Occ q.o
  blank : ∀ a i, N a → Occ a → (∀ t, (a, t) ∉ F.terms) → (∀ t, a ≠ .term t) → f a ≠ .iri i
  notLit : ∀ a, N a → Occ a → ∀ l, f a ≠ .literal l

variable {c : DeCtx} {F : DeState} {N Occ : IRes → Prop} {f : IRes → Term} {D : List (Quad Term)} {S : Term → Prop}

theorem Named.mem (h : Named F N Occ f D) {r : IRes} (hN : N r) (hO : Occ r) {p y : Term} :
    (⟨f r, p, y, none⟩ : Quad Term) ∈ D ↔ ∃ x, lk r p x ∈ F.out ∧ y = f x := by
  constructor
  · intro hm
    obtain ⟨⟨s, p', o, g⟩, hq, e⟩ := h.about _ hm rfl r hN hO rfl
    simp only [Quad.map, Quad.mk.injEq] at e
    obtain ⟨⟨p'', hp⟩, hg⟩ := h.form _ hq
    have hs := h.inj _ _ hN (h.subj _ hq) hO (h.occ _ hq).1 e.1
    simp only at hp hg hs
    subst hp hg hs
    rw [h.term] at e
    refine ⟨o, ?_, e.2.2.1⟩
    rw [e.2.1]
    exact hq
  · rintro ⟨x, hx, rfl⟩
    have := h.contains _ hx
    simpa [Quad.map, lk, h.term] using this

theorem Named.only (h : Named F N Occ f D) {r : IRes} (hN : N r) (hO : Occ r) {p : Term} {x : IRes} (ho : Only F r p x)
    {y : Term} : (⟨f r, p, y, none⟩ : Quad Term) ∈ D ↔ y = f x := by
  rw [h.mem hN hO]
  constructor
  · rintro ⟨z, hz, rfl⟩
    have := ho.2 _ hz rfl rfl
    simp only [lk, Quad.mk.injEq, true_and, and_true] at this
    rw [this]
  · rintro rfl
    exact ⟨x, ho.1, rfl⟩

/-! ## Matches -/

theorem inGraph_none (pats : List (QuadPat Term)) : inGraph none pats = pats := by
  unfold inGraph
  conv => rhs; rw [← List.map_id pats]
  apply List.map_congr_left
  rintro ⟨s, p, o, g⟩ -
  cases g <;> rfl

theorem subst_eq {σ τ : Subst Term} (h1 : σ.length = τ.length) (h2 : ∀ i, i < σ.length → σ.get i = τ.get i) : σ = τ := by
  apply List.ext_getElem h1
  intro i hi hi'
  have := h2 i hi
  simp only [Subst.get, List.getElem?_eq_getElem hi, List.getElem?_eq_getElem hi'] at this
  simpa using this

theorem match_const {t : Term} {ds : List (QuadPat Term)} (hc : ConstPats ds)
    (hd : ∀ p o, (⟨.var 0, .res p, .res o, none⟩ : QuadPat Term) ∈ ds → (⟨t, p, o, none⟩ : Quad Term) ∈ D) :
    UniqueMatch D [some t] (inGraph none ds) [some t] := by
  rw [inGraph_none]
  refine ⟨⟨rfl, fun _ _ h => h, ?_, fun _ _ h => .inl h⟩, ?_⟩
  · intro q hq
    obtain ⟨p, o, rfl⟩ := hc q hq
    exact ⟨_, hd p o hq, rfl, rfl, rfl, trivial⟩
  · intro τ hτ
    apply subst_eq hτ.length_eq
    intro i hi
    rw [hτ.length_eq] at hi
    have : i = 0 := by simpa using hi
    subst this
    exact hτ.keeps 0 t rfl

theorem match_link {t p : Term} {τ : Subst Term} :
    IsMatch D [some t, none] (inGraph none [linkPat 0 1 p]) τ ↔
      ∃ y, τ = [some t, some y] ∧ (⟨t, p, y, none⟩ : Quad Term) ∈ D := by
  rw [inGraph_none]
  constructor
  · intro h
    have h0 := h.keeps 0 t rfl
    obtain ⟨q, hq, h1, h2, h3, h4⟩ := h.sat _ (List.mem_singleton.2 rfl)
    obtain ⟨s, p', o, g⟩ := q
    replace h1 : τ.get 0 = some s := h1
    replace h2 : p' = p := h2
    replace h3 : τ.get 1 = some o := h3
    replace h4 : g = none := by
      cases g with
      | none => rfl
      | some g => exact absurd h4 (by simp [linkPat])
    rw [h0] at h1
    obtain rfl := Option.some.inj h1
    subst h2 h4
    refine ⟨o, subst_eq h.length_eq ?_, hq⟩
    intro i hi
    rw [h.length_eq] at hi
    have : i = 0 ∨ i = 1 := by simp at hi; omega
    rcases this with rfl | rfl
    · exact h0
    · exact h3
  · rintro ⟨y, rfl, hq⟩
    refine ⟨rfl, ?_, ?_, ?_⟩
    · intro i r h
      match i, h with
      | 0, h => exact h
      | 1, h => simp [Subst.get] at h
      | i + 2, h => simp [Subst.get] at h
    · simp only [List.mem_singleton, forall_eq]
      exact ⟨_, hq, rfl, rfl, rfl, trivial⟩
    · intro i r h
      match i, h with
      | 0, h => exact .inl h
      | 1, h => exact .inr (by simp [patsVars, QuadPat.vars, linkPat, Pattern.vars])
      | i + 2, h => simp [Subst.get] at h

theorem match_node {t h first rest : Term} {ds : List (QuadPat Term)}
    (hds : ∀ q, q ∈ ds ↔ q = linkPat 1 3 first ∨ q = linkPat 1 2 rest) {τ : Subst Term} :
    IsMatch D [some t, some h, none, none] (inGraph none ds) τ ↔ ∃ x y, τ = [some t, some h, some y, some x] ∧
      (⟨h, first, x, none⟩ : Quad Term) ∈ D ∧ (⟨h, rest, y, none⟩ : Quad Term) ∈ D := by
  rw [inGraph_none]
  constructor
  · intro hm
    have h0 := hm.keeps 0 t rfl
    have h1 := hm.keeps 1 h rfl
    obtain ⟨⟨s1, p1, o1, g1⟩, hq1, a1, a2, a3, a4⟩ := hm.sat _ ((hds _).2 (.inl rfl))
    obtain ⟨⟨s2, p2, o2, g2⟩, hq2, b1, b2, b3, b4⟩ := hm.sat _ ((hds _).2 (.inr rfl))
    replace a1 : τ.get 1 = some s1 := a1
    replace a2 : p1 = first := a2
    replace a3 : τ.get 3 = some o1 := a3
    replace b1 : τ.get 1 = some s2 := b1
    replace b2 : p2 = rest := b2
    replace b3 : τ.get 2 = some o2 := b3
    replace a4 : g1 = none := by
      cases g1 with
      | none => rfl
      | some g => exact absurd a4 (by simp [linkPat])
    replace b4 : g2 = none := by
      cases g2 with
      | none => rfl
      | some g => exact absurd b4 (by simp [linkPat])
    rw [h1] at a1 b1
    obtain rfl := Option.some.inj a1
    obtain rfl := Option.some.inj b1
    subst a2 b2 a4 b4
    refine ⟨o1, o2, subst_eq hm.length_eq ?_, hq1, hq2⟩
    intro i hi
    rw [hm.length_eq] at hi
    have : i = 0 ∨ i = 1 ∨ i = 2 ∨ i = 3 := by simp at hi; omega
    rcases this with rfl | rfl | rfl | rfl
    · exact h0
    · exact h1
    · exact b3
    · exact a3
  · rintro ⟨x, y, rfl, hq1, hq2⟩
    refine ⟨rfl, ?_, ?_, ?_⟩
    · intro i r h
      match i, h with
      | 0, h => exact h
      | 1, h => exact h
      | 2, h => simp [Subst.get] at h
      | 3, h => simp [Subst.get] at h
      | i + 4, h => simp [Subst.get] at h
    · intro q hq
      rcases (hds q).1 hq with rfl | rfl
      · exact ⟨_, hq1, rfl, rfl, rfl, trivial⟩
      · exact ⟨_, hq2, rfl, rfl, rfl, trivial⟩
    · intro i r h
      match i, h with
      | 0, h => exact .inl h
      | 1, h => exact .inl h
      | 2, h =>
        refine .inr (List.mem_flatMap.2 ⟨_, (hds _).2 (.inr rfl), ?_⟩)
        simp [QuadPat.vars, linkPat, Pattern.vars]
      | 3, h =>
        refine .inr (List.mem_flatMap.2 ⟨_, (hds _).2 (.inl rfl), ?_⟩)
        simp [QuadPat.vars, linkPat, Pattern.vars]
      | i + 4, h => simp [Subst.get] at h

theorem match_link_unique {t p y : Term} (h : ∀ z, (⟨t, p, z, none⟩ : Quad Term) ∈ D ↔ z = y) :
    UniqueMatch D [some t, none] (inGraph none [linkPat 0 1 p]) [some t, some y] := by
  refine ⟨match_link.2 ⟨y, rfl, (h y).2 rfl⟩, fun τ hτ => ?_⟩
  obtain ⟨z, rfl, hz⟩ := match_link.1 hτ
  rw [(h z).1 hz]

/-! ## Sub-values -/

variable {hc : HyCtx Term}

theorem sub_var {rec : Hydrate.Rec Term} {fmt : ValueFormat Term} {x : Nat} (hv : fmt.IsVar x) {σ : Subst Term} {t : Term}
    (ht : σ.get x = some t) {w : TypedValue Term} (h : rec none fmt.layout [t] = .ok w) :
    Hydrate.subValue rec none fmt σ = .ok w := by
  rw [Hydrate.subValue_eq_ok]
  refine ⟨[t], none, ?_, ?_, h⟩
  · rw [hv.1]; exact .cons ht .nil
  · rw [hv.2]; rfl

theorem hyd_mono {m m' : Nat} (hm : m ≤ m') {ref t : Term} {w : TypedValue Term}
    (h : Hydrate.hydrate hc m none ref [t] = .ok w) : Hydrate.hydrate hc m' none ref [t] = .ok w := by
  have := (Hydrate.hydrate_mono hc m m' hm none ref [t]).eq_of_ne (by rw [h]; simp)
  rw [this, h]

theorem skolem {α β : Type _} [Inhabited β] {l : List α} {P : α → β → Prop} (h : ∀ a ∈ l, ∃ b, P a b) :
    ∃ f : α → β, ∀ a ∈ l, P a (f a) := by
  classical
  refine ⟨fun a => if ha : ∃ b, P a b then ha.choose else default, fun a ha => ?_⟩
  simp only [dif_pos (h a ha)]
  exact (h a ha).choose_spec

theorem bound {α : Type _} {l : List α} {P : α → Nat → Prop} (hP : ∀ a m m', m ≤ m' → P a m → P a m')
    (h : ∀ a ∈ l, ∃ m, P a m) : ∃ m, ∀ a ∈ l, P a m := by
  induction l with
  | nil => exact ⟨0, by simp⟩
  | cons a l ih =>
    obtain ⟨m, hm⟩ := h a (by simp)
    obtain ⟨m', hm'⟩ := ih fun b hb => h b (List.mem_cons_of_mem _ hb)
    refine ⟨max m m', ?_⟩
    simp only [List.mem_cons, forall_eq_or_imp]
    exact ⟨hP _ _ _ (by omega) hm, fun b hb => hP _ _ _ (by omega) (hm' b hb)⟩

/-- Hydration of `t` gives a tree equal to `v`. -/
def Back (hc : HyCtx Term) (ref t : Term) (v : Value) : Prop :=
  ∃ m w, Hydrate.hydrate hc m none ref [t] = .ok w ∧ SameTree hc.reg ref v w.untype

theorem hydrate_succ {n : Nat} {ref t : Term} {l : Layout Term} (hl : hc.reg ref = some l)
    (hi : ∀ k, l.inputCount = some k → k = 1) :
    Hydrate.hydrate hc (n + 1) none ref [t] = Hydrate.layout hc (Hydrate.hydrate hc n) n none ref [t] l := by
  conv => lhs; unfold Hydrate.hydrate
  rw [hl]
  simp only
  rw [if_neg]
  cases h : l.inputCount with
  | none => simp
  | some k => simp [hi k h]

/-- The match of the constant patterns of a layout. -/
theorem required_const (hD : hc.ds.Nodup) (frag : DataFragment Term) {t : Term} {ds : List (QuadPat Term)} (hcp : ConstPats ds)
    (hd : ∀ p o, (⟨.var 0, .res p, .res o, none⟩ : QuadPat Term) ∈ ds → (⟨t, p, o, none⟩ : Quad Term) ∈ hc.ds) :
    Hydrate.requiredMatch hc frag ((Subst.fromInputs [t]).intro 0) ds none = .ok [some t] := by
  rw [Hydrate.requiredMatch_eq_ok hc hD _ _ _ _ (declared_of_below (const_below hcp 0) (by simp [Subst.fromInputs, Subst.intro]))]
  exact match_const hcp hd

theorem constPats_nil : ConstPats [] := by simp [ConstPats]

theorem required_nil (hD : hc.ds.Nodup) (frag : DataFragment Term) (t : Term) :
    Hydrate.requiredMatch hc frag ((Subst.fromInputs [t]).intro 0) [] none = .ok [some t] :=
  required_const hD frag constPats_nil (by simp)

theorem Named.const (h : Named F N Occ f D) {r : IRes} {ds : List (QuadPat Term)} 
    (hq : ∀ q ∈ ds, quadInst [r] q ∈ F.out) :
    ∀ p o, (⟨.var 0, .res p, .res o, none⟩ : QuadPat Term) ∈ ds → (⟨f r, p, o, none⟩ : Quad Term) ∈ D := by
  intro p o hm
  have := h.contains _ (hq _ hm)
  simpa [Quad.map, quadInst, patInst, h.term] using this

/-- One linked sub-value. -/
theorem required_link (hD : hc.ds.Nodup) (frag : DataFragment Term) {t p y : Term}
    (h : ∀ z, (⟨t, p, z, none⟩ : Quad Term) ∈ hc.ds ↔ z = y) :
    Hydrate.requiredMatch hc frag (Subst.intro [some t] 1) [linkPat 0 1 p] none = .ok [some t, some y] := by
  rw [Hydrate.requiredMatch_eq_ok hc hD _ _ _ _
    (declared_of_below (patsBelow_link 2 0 1 p (by omega) (by omega)) (by simp [Subst.intro]))]
  exact match_link_unique h

theorem unique_link (hD : hc.ds.Nodup) (frag : DataFragment Term) {t p y : Term}
    (h : ∀ z, (⟨t, p, z, none⟩ : Quad Term) ∈ hc.ds ↔ z = y) :
    Hydrate.uniqueMatch hc frag (Subst.intro [some t] 1) [linkPat 0 1 p] none = .ok (some [some t, some y]) := by
  rw [Hydrate.uniqueMatch_eq_some hc hD _ _ _ _
    (declared_of_below (patsBelow_link 2 0 1 p (by omega) (by omega)) (by simp [Subst.intro]))]
  exact match_link_unique h

theorem unique_link_none (hD : hc.ds.Nodup) (frag : DataFragment Term) {t p : Term}
    (h : ∀ z, (⟨t, p, z, none⟩ : Quad Term) ∉ hc.ds) :
    Hydrate.uniqueMatch hc frag (Subst.intro [some t] 1) [linkPat 0 1 p] none = .ok none := by
  rw [Hydrate.uniqueMatch_eq_none hc hD _ _ _ _
    (declared_of_below (patsBelow_link 2 0 1 p (by omega) (by omega)) (by simp [Subst.intro]))]
  intro τ hτ
  obtain ⟨z, -, hz⟩ := match_link.1 hτ
  exact h z hz

theorem unique_self (hD : hc.ds.Nodup) (frag : DataFragment Term) (t : Term) :
    Hydrate.uniqueMatch hc frag (Subst.intro [some t] 0) [] none = .ok (some [some t]) := by
  rw [Hydrate.uniqueMatch_eq_some hc hD _ _ _ _
    (declared_of_below (const_below constPats_nil 0) (by simp [Subst.intro]))]
  exact match_const constPats_nil (by simp)

/-! ## Records -/

/-- The fields of a record. -/
theorem fields_back (hD : hc.ds.Nodup) (hN : Named F N Occ f hc.ds) {r : IRes} (hr : N r) (ho : Occ r)
    {M : Term → IRes → Value → Prop} {l : ProductLayout Term} (hl : l.Tree hc.reg) {m : List (Value × Value)}
    (ih : ∀ k v g x, (k, v) ∈ m → (k, g) ∈ l.fields → M g.value.layout x v → Occ x → Back hc g.value.layout (f x) v)
    (hreq : ∀ k g, (k, g) ∈ l.fields → g.required = true → ∃ v, (k, v) ∈ m)
    (hrep : ∀ k v g, (k, v) ∈ m → (k, g) ∈ l.fields → FieldRep c F M r g v)
    (habs : ∀ k g p, (k, g) ∈ l.fields → (∀ v, (k, v) ∉ m) → g.IsLink p → ∀ q ∈ F.out, q.s = r → q.p ≠ .term p)
    (ref : Term) (fs : List (Value × Field Term)) (hfs : ∀ e ∈ fs, e ∈ l.fields) :
    ∃ n m', (∀ n', n ≤ n' → Hydrate.fields hc (Hydrate.hydrate hc n') none ref [some (f r)] fs = .ok m') ∧
      m'.map Prod.fst = (fs.map Prod.fst).filter (fun k => decide (k ∈ m.map Prod.fst)) ∧
      ∀ k w, (k, w) ∈ m' → ∃ v g, (k, v) ∈ m ∧ (k, g) ∈ fs ∧ SameTree hc.reg g.value.layout v w.untype := by
  induction fs with
  | nil => exact ⟨0, [], fun _ _ => rfl, rfl, by simp⟩
  | cons e fs ihf =>
    obtain ⟨key, g⟩ := e
    obtain ⟨n, m', h1, h2, h3⟩ := ihf fun e he => hfs e (List.mem_cons_of_mem _ he)
    have hmem : (key, g) ∈ l.fields := hfs _ (by simp)
    by_cases hk : key ∈ m.map Prod.fst
    · obtain ⟨⟨key', v⟩, hv, e⟩ := List.mem_map.1 hk
      simp only at e
      subst e
      have hf := hrep _ v g hv hmem
      have hstep : ∃ σ k w, (∀ frag, Hydrate.uniqueMatch hc frag (Subst.intro [some (f r)] g.intro) g.dataset none = .ok (some σ)) ∧
          (∀ n', k ≤ n' → Hydrate.subValue (Hydrate.hydrate hc n') none g.value σ = .ok w) ∧
          SameTree hc.reg g.value.layout v w.untype := by
        have hself : g.OnSelf → ∃ σ k w, (∀ frag, Hydrate.uniqueMatch hc frag (Subst.intro [some (f r)] g.intro) g.dataset none = .ok (some σ)) ∧
            (∀ n', k ≤ n' → Hydrate.subValue (Hydrate.hydrate hc n') none g.value σ = .ok w) ∧
            SameTree hc.reg g.value.layout v w.untype := by
          intro hs
          obtain ⟨k, w, hw, hsame⟩ := ih _ v g r hv hmem (hf.self hs) ho
          refine ⟨[some (f r)], k, w, fun frag => ?_, fun n' hn' => sub_var hs.2.2 rfl (hyd_mono hn' hw), hsame⟩
          rw [hs.1, hs.2.1]
          exact unique_self hD frag _
        rcases hl.fields _ hmem with ⟨p, hp | hp⟩ | hp
        · obtain ⟨x, hx, hM⟩ := hf.link p hp
          obtain ⟨k, w, hw, hsame⟩ := ih _ v g x hv hmem hM (hN.occ _ hx.1).2
          refine ⟨[some (f r), some (f x)], k, w, fun frag => ?_, fun n' hn' => sub_var hp.2.2 rfl (hyd_mono hn' hw), hsame⟩
          rw [hp.1, hp.2.1]
          exact unique_link hD frag fun z => hN.only hr ho hx
        · exact hself hp.1
        · exact hself hp.1
      obtain ⟨σ, k, w, g1, g2, g3⟩ := hstep
      refine ⟨max n k, (key', w) :: m', fun n' hn' => ?_, ?_, ?_⟩
      · simp only [Hydrate.fields, g1, Out.bind_ok, g2 n' (by omega), h1 n' (by omega)]
      · rw [List.map_cons, List.map_cons, List.filter_cons_of_pos (by simpa using hk), h2]
      · intro k' w' hw'
        rcases List.mem_cons.1 hw' with e | hw'
        · simp only [Prod.mk.injEq] at e
          obtain ⟨rfl, rfl⟩ := e
          exact ⟨v, g, hv, by simp, g3⟩
        · obtain ⟨v', g', a1, a2, a3⟩ := h3 k' w' hw'
          exact ⟨v', g', a1, List.mem_cons_of_mem _ a2, a3⟩
    · have hno : ∀ v, (key, v) ∉ m := fun v hv => hk (List.mem_map.2 ⟨_, hv, rfl⟩)
      have hr' : g.required = false := by
        cases hgr : g.required with
        | false => rfl
        | true => obtain ⟨v, hv⟩ := hreq key g hmem hgr; exact absurd hv (hno v)
      have hns : ¬ g.OnSelf := fun hs => by
        have := hl.required _ hmem hs
        simp only at this
        rw [hr'] at this; simp at this
      obtain ⟨p, hp⟩ : ∃ p, g.IsLink p := by
        rcases hl.fields _ hmem with ⟨p, hp | hp⟩ | hp
        · exact ⟨p, hp⟩
        · exact absurd hp.1 hns
        · exact absurd hp.1 hns
      refine ⟨n, m', fun n' hn' => ?_, ?_, ?_⟩
      · have : ∀ frag, Hydrate.uniqueMatch hc frag (Subst.intro [some (f r)] g.intro) g.dataset none = .ok none := by
          intro frag
          rw [hp.1, hp.2.1]
          refine unique_link_none hD frag fun z hz => ?_
          obtain ⟨x, hx, -⟩ := (hN.mem hr ho).1 hz
          exact habs key g p hmem hno hp _ hx rfl rfl
        simp only [Hydrate.fields, this, Out.bind_ok, hr', h1 n' hn']
        rfl
      · rw [List.map_cons, List.filter_cons_of_neg (by simpa using hk), h2]
      · intro k' w' hw'
        obtain ⟨v', g', a1, a2, a3⟩ := h3 k' w' hw'
        exact ⟨v', g', a1, List.mem_cons_of_mem _ a2, a3⟩

/-! ## Lists -/

theorem chain_back (hD : hc.ds.Nodup) (hN : Named F N Occ f hc.ds) {M : IRes → Value → Prop} {l : OrderedLayout Term}
    {first rest : Term} {tail : String} (hl : l.IsChain first rest tail) (t0 : Term) {vs : List Value}
    (ih : ∀ v x, v ∈ vs → M x v → Occ x → Back hc l.node.value.layout (f x) v) {h : IRes} (ho : vs ≠ [] → Occ h)
    (hrep : ChainRep F N M first rest tail h vs) :
    ∃ m ws, (∀ m', m ≤ m' → ChainMeaning hc.ds (fun g r i v => Hydrate.hydrate hc m' g r i = .ok v) none l.node [some t0]
        (.iri tail) (f h) ws) ∧
      List.Forall₂ (fun v w => SameTree hc.reg l.node.value.layout v w.untype) vs ws := by
  induction vs generalizing h with
  | nil =>
    have : h = .term (.iri tail) := hrep
    subst this
    rw [hN.term]
    exact ⟨0, [], fun _ _ => .nil, .nil⟩
  | cons v vs ihc =>
    obtain ⟨h1, h2, h3, x, next, h4, h5, h6, h7⟩ := hrep
    have hoh := ho (by simp)
    obtain ⟨m1, w, hw, hsame⟩ := ih v x (by simp) h6 (hN.occ _ h4.1).2
    obtain ⟨m2, ws, hws, hsames⟩ := ihc (fun v x hv => ih v x (List.mem_cons_of_mem _ hv)) (fun _ => (hN.occ _ h5.1).2) h7
    obtain ⟨-, -, -, -, -, -, hint, hds, hval⟩ := hl
    refine ⟨max m1 m2, w :: ws, fun m' hm' => ?_, .cons hsame hsames⟩
    refine .cons (σ' := [some t0, some (f h), some (f next), some (f x)]) (next := f next) (hN.blank h tail h1 hoh h2 h3) ?_ ?_ rfl
      (hws m' (by omega))
    · rw [hint]
      refine ⟨(match_node hds).2 ⟨f x, f next, rfl, (hN.only h1 hoh h4).2 rfl, (hN.only h1 hoh h5).2 rfl⟩, fun τ hτ => ?_⟩
      obtain ⟨a, b, rfl, ha, hb⟩ := (match_node hds).1 hτ
      rw [(hN.only h1 hoh h4).1 ha, (hN.only h1 hoh h5).1 hb]
    · rw [← Hydrate.subValue_eq_ok]
      exact sub_var hval rfl (hyd_mono (by omega) hw)

theorem sized_back (hD : hc.ds.Nodup) (hN : Named F N Occ f hc.ds) {r : IRes} (hr : N r) (ho : Occ r)
    {M : Term → IRes → Value → Prop} (ref : Term) {is : List (ItemLayout Term)} {vs : List Value}
    (hlink : ∀ i ∈ is, ∃ p, i.IsLink p)
    (ih : ∀ i v x, i ∈ is → v ∈ vs → M i.value.layout x v → Occ x → Back hc i.value.layout (f x) v)
    (hrep : List.Forall₂ (fun (i : ItemLayout Term) v => ∀ p, i.IsLink p → ∃ x, Only F r p x ∧ M i.value.layout x v) is vs)
    (k : Nat) :
    ∃ m ws, (∀ m', m ≤ m' → Hydrate.sizedItems hc (Hydrate.hydrate hc m') none ref [some (f r)] k is = .ok ws) ∧
      vs.length = ws.length ∧
      ∀ e ∈ is.zip (vs.zip (ws.map TypedValue.untype)), SameTree hc.reg e.1.value.layout e.2.1 e.2.2 := by
  induction hrep generalizing k with
  | nil => exact ⟨0, [], fun _ _ => rfl, rfl, by simp⟩
  | @cons i v is vs h1 h2 ihc =>
    obtain ⟨p, hp⟩ := hlink i (by simp)
    obtain ⟨x, hx, hM⟩ := h1 p hp
    obtain ⟨m1, w, hw, hsame⟩ := ih i v x (by simp) (by simp) hM (hN.occ _ hx.1).2
    obtain ⟨m2, ws, hws, hlen, hsames⟩ := ihc (fun i hi => hlink i (List.mem_cons_of_mem _ hi))
      (fun i v x hi hv => ih i v x (List.mem_cons_of_mem _ hi) (List.mem_cons_of_mem _ hv)) (k + 1)
    refine ⟨max m1 m2, w :: ws, fun m' hm' => ?_, by simp [hlen], ?_⟩
    · have hreq : Hydrate.requiredMatch hc (.sizedListItem ref k) (Subst.intro [some (f r)] i.intro) i.dataset none =
          .ok [some (f r), some (f x)] := by
        rw [hp.1, hp.2.1]
        exact required_link hD _ fun z => hN.only hr ho hx
      have hsub := sub_var (σ := [some (f r), some (f x)]) hp.2.2 rfl (hyd_mono (show m1 ≤ m' by omega) hw)
      simp only [Hydrate.sizedItems, hreq, Out.bind_ok, hsub, hws m' (by omega)]
    · simp only [List.map_cons, List.zip_cons_cons, List.mem_cons, forall_eq_or_imp]
      exact ⟨hsame, hsames⟩

theorem forall₂_left {α β : Type _} {R : α → β → Prop} {l : List α} {l' : List β} (h : List.Forall₂ R l l') :
    ∀ a ∈ l, ∃ b ∈ l', R a b := by
  induction h with
  | nil => simp
  | cons h1 _ ih =>
    simp only [List.mem_cons, forall_eq_or_imp, exists_eq_or_imp]
    exact ⟨.inl h1, fun a ha => .inr (ih a ha)⟩

theorem forall₂_right {α β : Type _} {R : α → β → Prop} {l : List α} {l' : List β} (h : List.Forall₂ R l l') :
    ∀ b ∈ l', ∃ a ∈ l, R a b := by
  induction h with
  | nil => simp
  | cons h1 _ ih =>
    simp only [List.mem_cons, forall_eq_or_imp, exists_eq_or_imp]
    exact ⟨.inl h1, fun a ha => .inr (ih a ha)⟩

theorem set_back (hD : hc.ds.Nodup) (hN : Named F N Occ f hc.ds) {r : IRes} (hr : N r) (ho : Occ r)
    {M : IRes → Value → Prop} {item : ItemLayout Term} {p : Term} (hlink : item.IsLink p) {vs : List Value} {xs : List IRes}
    (ih : ∀ v x, v ∈ vs → M x v → Occ x → Back hc item.value.layout (f x) v) (hM : List.Forall₂ M xs vs)
    (hq : ∀ x ∈ xs, lk r p x ∈ F.out) (honly : ∀ q ∈ F.out, q.s = r → q.p = .term p → ∃ x ∈ xs, q = lk r p x) :
    ∃ m ws, (∀ m', m ≤ m' →
        (let st := Matching.new (Subst.intro [some (f r)] item.intro) (withDefaultGraph item.dataset none)
        Hydrate.unorderedItems hc (Hydrate.hydrate hc m') none item.value (Matching.weight hc.ds.length st + 1) st) = .ok ws) ∧
      (∀ v ∈ vs, ∃ w ∈ ws, SameTree hc.reg item.value.layout v w.untype) ∧
      ∀ w ∈ ws, ∃ v ∈ vs, SameTree hc.reg item.value.layout v w.untype := by
  have hd : Declared (Subst.intro [some (f r)] item.intro) (withDefaultGraph item.dataset none) := by
    rw [hlink.1, hlink.2.1]
    exact declared_of_below (patsBelow_link 2 0 1 p (by omega) (by omega)) (by simp [Subst.intro])
  have hmem : ∀ τ, τ ∈ Matching.enum hc.ds (withDefaultGraph item.dataset none) (Subst.intro [some (f r)] item.intro) ↔
      ∃ x ∈ xs, τ = [some (f r), some (f x)] := by
    intro τ
    rw [Matching.mem_enum _ _ _ hd, ← inGraph_eq, hlink.1, hlink.2.1]
    refine match_link.trans ?_
    constructor
    · rintro ⟨y, rfl, hy⟩
      obtain ⟨x, hx, rfl⟩ := (hN.mem hr ho).1 hy
      obtain ⟨x', hx', e⟩ := honly _ hx rfl rfl
      simp only [lk, Quad.mk.injEq, true_and, and_true] at e
      rw [e]
      exact ⟨x', hx', rfl⟩
    · rintro ⟨x, hx, rfl⟩
      exact ⟨f x, rfl, (hN.mem hr ho).2 ⟨x, hq x hx, rfl⟩⟩
  have hval : ∀ τ ∈ Matching.enum hc.ds (withDefaultGraph item.dataset none) (Subst.intro [some (f r)] item.intro),
      ∃ m, ∃ w, (∀ m', m ≤ m' → Hydrate.subValue (Hydrate.hydrate hc m') none item.value τ = .ok w) ∧
        ∃ v ∈ vs, SameTree hc.reg item.value.layout v w.untype := by
    intro τ hτ
    obtain ⟨x, hx, rfl⟩ := (hmem τ).1 hτ
    obtain ⟨v, hv, hMx⟩ := forall₂_left hM x hx
    obtain ⟨m, w, hw, hsame⟩ := ih v x hv hMx (hN.occ _ (hq x hx)).2
    exact ⟨m, w, fun m' hm' => sub_var hlink.2.2 rfl (hyd_mono hm' hw), v, hv, hsame⟩
  obtain ⟨m, hm⟩ := bound (by
    rintro τ m m' h1 ⟨w, h2, h3⟩
    exact ⟨w, fun m'' h4 => h2 m'' (by omega), h3⟩) hval
  have : ∃ ws, List.Forall₂ (fun τ w => (∀ m', m ≤ m' → Hydrate.subValue (Hydrate.hydrate hc m') none item.value τ = .ok w) ∧
        ∃ v ∈ vs, SameTree hc.reg item.value.layout v w.untype)
      (Matching.enum hc.ds (withDefaultGraph item.dataset none) (Subst.intro [some (f r)] item.intro)) ws := by
    clear hmem hval
    generalize Matching.enum hc.ds (withDefaultGraph item.dataset none) (Subst.intro [some (f r)] item.intro) = l at hm
    induction l with
    | nil => exact ⟨[], .nil⟩
    | cons τ l ih =>
      obtain ⟨w, hw⟩ := hm τ (by simp)
      obtain ⟨ws, hws⟩ := ih fun τ hτ => hm τ (List.mem_cons_of_mem _ hτ)
      exact ⟨w :: ws, .cons hw hws⟩
  obtain ⟨ws, hws⟩ := this
  refine ⟨m, ws, fun m' hm' => ?_, ?_, ?_⟩
  · dsimp only
    rw [Hydrate.unorderedItems_eq hc _ none item.value _ _ (by omega) (Matching.inv_new hd), Matching.stackEnum_new,
      Out.mapM'_eq_ok]
    exact hws.imp fun τ w h => h.1 m' hm'
  · intro v hv
    obtain ⟨x, hx, hMx⟩ := forall₂_right hM v hv
    obtain ⟨w, hw, h1, -⟩ := forall₂_left hws _ ((hmem _).2 ⟨x, hx, rfl⟩)
    obtain ⟨m2, w2, hw2, hsame⟩ := ih v x hv hMx (hN.occ _ (hq x hx)).2
    have e1 := h1 (max m m2) (by omega)
    rw [sub_var hlink.2.2 rfl (hyd_mono (show m2 ≤ max m m2 by omega) hw2)] at e1
    simp only [Out.ok.injEq] at e1
    subst e1
    exact ⟨w2, hw, hsame⟩
  · intro w hw
    obtain ⟨τ, -, -, h2⟩ := forall₂_right hws w hw
    exact h2

end Verif.RoundTrip
