import Verif.RoundTripEntries

/-! # What the loop over the nodes of an ordered list writes -/

set_option linter.unusedSectionVars false
set_option linter.unusedSimpArgs false

namespace Verif.RoundTrip

open Dehydrate

variable {c : DeCtx} {F : DeState} {S : Term → Prop} {rec : Rec} {ids : Term → Value → List String}
  {M : (IRes → Prop) → Term → IRes → Value → Prop}

/-- One node of a list: the head `h`, the item `k` and the following node. -/
theorem node_step (hR : RunSpec c F S rec ids M) (hok : RecOk rec) {h next : IRes} {k : Nat} {first rest : Term}
    {s s1 s2 s' : DeState} {A : IRes → Prop} {v : Value} {ref : Term}
    (hcall : rec v none ref [.anon k] s1 = (.ok (), s2)) (hk : s.fresh ≤ k) (h1f : s1.fresh = k + 1)
    (h1t : s1.terms = s.terms)
    (h1o : ∀ q, q ∈ s1.out ↔ q ∈ s.out ∨ q = lk h first (.anon k) ∨ q = lk h rest next)
    (hnext : ∀ i, next = .anon i → i < k) (hh : Old h s.fresh) (hb : Bounded s)
    (hkt : NoTerms s) (hS : S ref) (hne : Recoverable c.reg ref v) (hso : v.Sorted) (hfr : Fr F s.fresh s')
    (hfoot : Footprint A s2.fresh s2 s') (hext : Extends s2 s') (hA : ∀ i, A (.anon i) → i < k) :
    ∃ ns, Nodes F k s2.fresh ns ∧ idsOf ns = ids ref v ∧ (∀ q ∈ s2.out, q ∈ s1.out ∨ In ns q.s) ∧
      M (In ns) ref (.anon k) v ∧ Bounded s2 ∧ NoTerms s2 ∧ k < s2.fresh ∧ Extends s1 s2 ∧
      ∀ a t, Old a k → (a, t) ∈ s2.terms → (a, t) ∈ s.terms := by
  have hb1 : Bounded s1 := by
    constructor
    · intro q hq
      rw [h1f]
      rcases (h1o q).1 hq with h' | rfl | rfl
      · exact (hb.quads q h').mono fun r hr i e => by have := hr i e; omega
      · refine ⟨fun i e => by have := hh.2 i e; omega, by simp [lk], ?_, by simp [lk]⟩
        simp only [lk, IRes.anon.injEq]; omega
      · exact ⟨fun i e => by have := hh.2 i e; omega, by simp [lk], fun i e => by have := hnext i e; omega, by simp [lk]⟩
    · intro e he i hi
      rw [h1t] at he
      have := hb.terms e he i hi
      omega
  obtain ⟨ns, g1, g2, g3, g4, g5, g5', g6, g7⟩ := child hR hok (lo := k) hcall (Nat.le_refl _) (by omega) hb1
    (by intro e he; rw [h1t] at he; exact hkt e he)
    (by
      intro q hq e
      rcases (h1o q).1 hq with h' | rfl | rfl
      · have := (hb.quads q h').1 _ e; omega
      · have := hh.2 _ e; omega
      · have := hh.2 _ e; omega)
    (fun t ht => by rw [h1t] at ht; have := hb.terms _ ht _ rfl; omega) hS hne hso (hfr.mono hk) hfoot hext hA
  refine ⟨ns, g1, g2, g3, g4, g5, g5', by have := g7.fresh; omega, g7, ?_⟩
  intro a t ha ht
  rcases g6.terms _ ht with h' | h'
  · rwa [h1t] at h'
  · exfalso
    rcases h' with h' | ⟨t, h'⟩ | ⟨j, h', hj, -⟩
    · have := ha.2 _ h'; omega
    · exact ha.1 t h'
    · have := ha.2 _ h'; omega

theorem IsChain.closed {l : OrderedLayout Term} {first rest : Term} {tail : String} (h : l.IsChain first rest tail) :
    l.node.Closed 4 := by
  obtain ⟨-, -, -, -, -, -, -, h8, h9, h10⟩ := h
  refine ⟨?_, ?_, ?_⟩
  · intro x hx
    simp only [patsVars, List.mem_flatMap] at hx
    obtain ⟨q, hq, hx⟩ := hx
    rcases (h8 q).1 hq with rfl | rfl
    · have : x = 1 ∨ x = 3 := by simpa [QuadPat.vars, linkPat, Pattern.vars] using hx
      omega
    · have : x = 1 ∨ x = 2 := by simpa [QuadPat.vars, linkPat, Pattern.vars] using hx
      omega
  · rw [h9]; simp [Pattern.Below, Pattern.vars]
  · rw [h10]; simp

/-- The nodes of a list. -/
theorem nodes_run (hR : RunSpec c F S rec ids M)
    (hM : ∀ N N' ref r v, (∀ r, N r → N' r) → M N ref r v → M N' ref r v)
    (hok : RecOk rec) {r : IRes} {env : Env IRes} (henv : IsEnv env r) {l : OrderedLayout Term} {first rest : Term}
    {tail : String} (hl : l.IsChain first rest tail) (hS : S l.node.value.layout) (vs : List Value) (h : IRes)
    (s s' : DeState) (hvs : vs ≠ []) (hrun : nodes rec none env l.node l.tail h vs s = (.ok (), s'))
    (hr : Old r s.fresh) (hh : Old h s.fresh) (hb : Bounded s) (hkt : NoTerms s) (E : Term → Term → Prop)
    (hE : ∀ o, ¬ E first o ∧ ¬ E rest o) (hq : ∀ q ∈ s.out, q.s = h → Extra E h q) (ht : ∀ t, (h, t) ∉ s.terms)
    (hne : ∀ v ∈ vs, Recoverable c.reg l.node.value.layout v) (hso : ∀ v ∈ vs, v.Sorted) (hfr : Fr F s.fresh s')
    (hfh : FrR F E h s') :
    ∃ ns, Nodes F s.fresh s'.fresh ns ∧ idsOf ns = vs.flatMap (ids l.node.value.layout) ∧
      (∀ q ∈ s'.out, q ∈ s.out ∨ q.s = h ∨ In ns q.s) ∧ s.fresh ≤ s'.fresh ∧ NoTerms s' ∧
      (∀ q ∈ s'.out, q.s = h → q ∈ s.out ∨ ∃ x, q = lk h first x ∨ q = lk h rest x) ∧
      (∀ a t, Old a s.fresh → (a, t) ∈ s'.terms → (a, t) ∈ s.terms) ∧
      ChainRep F (fun a => a = h ∨ In ns a) (M (In ns) l.node.value.layout) first rest tail h vs := by
  induction vs generalizing s h E with
  | nil => exact absurd rfl hvs
  | cons v vs ih =>
    obtain ⟨-, -, -, -, htail, hfr', hint, hds, hv⟩ := id hl
    rw [nodes_cons (by rw [htail]; simp [Pattern.Below, Pattern.vars])
      (by rw [henv, hint]; exact IsChain.closed hl), DeM.bind_eq_ok] at hrun
    obtain ⟨a, s2, hc, hrun⟩ := hrun
    rw [henv, hint] at hc
    cases vs with
    | nil =>
      simp only [nodes, DeM.pure, Prod.mk.injEq, true_and] at hrun
      subst hrun
      have hc' : rec v none l.node.value.layout [.anon s.fresh]
          (emit [r, h, .term (.iri tail), .anon s.fresh] l.node.dataset (alloc 1 s)) = (.ok (), s2) := by
        unfold call at hc
        rw [hv.1, hv.2, htail] at hc
        exact hc
      obtain ⟨ns, g1, g2, g3, g4, g5, g5', g6, g7, g8⟩ := node_step (A := fun _ => False) (h := h) (next := .term (.iri tail))
        (first := first) (rest := rest) hR hok hc' (Nat.le_refl _) rfl rfl
        (by
          intro q
          rw [mem_emit]
          simp only [hds, exists_eq_or_imp, exists_eq_left, alloc_out]
          exact or_congr Iff.rfl (or_congr ⟨fun h => h.symm, fun h => h.symm⟩ ⟨fun h => h.symm, fun h => h.symm⟩))
        (by simp) hh hb hkt hS (hne v (by simp)) (hso v (by simp)) hfr (.refl _ _ _) (extends_rel.refl _) (by simp)
      have hin : ∀ q ∈ s2.out, q.s = h → q ∈ s.out ∨ q = lk h first (.anon s.fresh) ∨
          q = lk h rest (.term (.iri tail)) := by
        intro q hq' e
        rcases g3 q hq' with h' | h'
        · rw [mem_emit] at h'
          simp only [hds, exists_eq_or_imp, exists_eq_left, alloc_out] at h'
          rcases h' with h' | h' | h'
          · exact .inl h'
          · exact .inr (.inl h'.symm)
          · exact .inr (.inr h'.symm)
        · obtain ⟨x, hx, e'⟩ := List.mem_map.1 h'
          obtain ⟨i, e1, h3, -⟩ := g1.range x hx
          have := hh.2 i (by rw [← e, ← e', e1])
          omega
      have hin' : ∀ q ∈ F.out, q.s = h → ∀ p, q.p = .term p → p = first ∨ p = rest → q = lk h first (.anon s.fresh) ∨
          q = lk h rest (.term (.iri tail)) := by
        have hex : ∀ q p, Extra E h q → q.p = .term p → ¬ (p = first ∨ p = rest) := by
          rintro q p ⟨p', o, hE', rfl⟩ ep hp
          simp only [lk, IRes.term.injEq] at ep
          subst ep
          rcases hp with rfl | rfl
          · exact (hE o).1 hE'
          · exact (hE o).2 hE'
        intro q hq' e p ep hp
        rcases hfh.quads q hq' e with h' | h'
        · rcases hin q h' e with h'' | h''
          · exact absurd hp (hex q p (hq q h'' e) ep)
          · exact h''
        · exact absurd hp (hex q p h' ep)
      have hq1 : lk h first (.anon s.fresh) ∈ s2.out := g7.quads _ (mem_emit.2 (.inr ⟨_, (hds _).2 (.inl rfl), rfl⟩))
      have hq2 : lk h rest (.term (.iri tail)) ∈ s2.out := g7.quads _ (mem_emit.2 (.inr ⟨_, (hds _).2 (.inr rfl), rfl⟩))
      refine ⟨ns, g1, by simp [g2], ?_, by omega, g5', ?_, g8, .inl rfl, ?_, hh.1, .anon s.fresh, .term (.iri tail), ?_, ?_,
        g4, rfl⟩
      · intro q hq'
        rcases g3 q hq' with h' | h'
        · rw [mem_emit] at h'
          simp only [hds, exists_eq_or_imp, exists_eq_left, alloc_out] at h'
          rcases h' with h' | rfl | rfl
          · exact .inl h'
          · exact .inr (.inl rfl)
          · exact .inr (.inl rfl)
        · exact .inr (.inr h')
      · intro q hq' e
        rcases hin q hq' e with h' | h' | h'
        · exact .inl h'
        · exact .inr ⟨_, .inl h'⟩
        · exact .inr ⟨_, .inr h'⟩
      · intro t ht'
        exact ht t (g8 h t hh (hfh.terms t ht'))
      · refine ⟨hfr.quads _ hq1, fun q hq' e ep => ?_⟩
        rcases hin' q hq' e _ ep (.inl rfl) with rfl | rfl
        · rfl
        · simp only [lk, IRes.term.injEq] at ep; exact absurd ep.symm hfr'
      · refine ⟨hfr.quads _ hq2, fun q hq' e ep => ?_⟩
        rcases hin' q hq' e _ ep (.inr rfl) with rfl | rfl
        · simp only [lk, IRes.term.injEq] at ep; exact absurd ep hfr'
        · rfl
    | cons v' vs =>
      have hc' : rec v none l.node.value.layout [.anon (s.fresh + 1)]
          (emit [r, h, .anon s.fresh, .anon (s.fresh + 1)] l.node.dataset (alloc 1 (alloc 1 s))) = (.ok (), s2) := by
        unfold call at hc
        rw [hv.1, hv.2] at hc
        exact hc
      change nodes rec none env l.node l.tail (.anon s.fresh) (v' :: vs) s2 = _ at hrun
      have hf2 : s.fresh + 2 ≤ s2.fresh := by
        have := hok.ext v none l.node.value.layout [.anon (s.fresh + 1)]
          (emit [r, h, .anon s.fresh, .anon (s.fresh + 1)] l.node.dataset (alloc 1 (alloc 1 s)))
        rw [hc'] at this
        exact this.fresh
      have hfoot : Footprint (fun a => a = r ∨ a = .anon s.fresh) s2.fresh s2 s' := by
        have := foot_nodes (A := fun a => a = r ∨ a = .anon s.fresh) hok.foot none (env := env) l.node l.tail (.anon s.fresh)
          (v' :: vs) (Nat.le_refl s2.fresh)
          (by
            intro x hx
            rw [henv] at hx
            simp only [List.mem_singleton] at hx
            exact .inl (.inl hx))
          (.inl (.inr rfl))
        rwa [hrun] at this
      have hext : Extends s2 s' := by
        have := pres_nodes extends_rel (fun v g ref ins s => hok.ext v g ref ins s) none env l.node l.tail (.anon s.fresh)
          (v' :: vs) s2
        rwa [hrun] at this
      obtain ⟨ns, g1, g2, g3, g4, g5, g5', g6, g7, g8⟩ := node_step (A := fun a => a = r ∨ a = .anon s.fresh) (h := h)
        (next := .anon s.fresh) (first := first) (rest := rest) hR hok hc' (Nat.le_succ _) rfl rfl
        (by
          intro q
          rw [mem_emit]
          simp only [hds, exists_eq_or_imp, exists_eq_left, alloc_out]
          exact or_congr Iff.rfl (or_congr ⟨fun h => h.symm, fun h => h.symm⟩ ⟨fun h => h.symm, fun h => h.symm⟩))
        (by simp only [IRes.anon.injEq]; omega) hh hb hkt hS (hne v (by simp)) (hso v (by simp)) hfr hfoot hext
        (by
          rintro i (e | e)
          · have := hr.2 i e.symm; omega
          · simp only [IRes.anon.injEq] at e; omega)
      have hmem1 : ∀ q ∈ s2.out, q ∈ s.out ∨ q = lk h first (.anon (s.fresh + 1)) ∨ q = lk h rest (.anon s.fresh) ∨
          In ns q.s := by
        intro q hq'
        rcases g3 q hq' with h' | h'
        · rw [mem_emit] at h'
          simp only [hds, exists_eq_or_imp, exists_eq_left, alloc_out] at h'
          rcases h' with h' | h' | h'
          · exact .inl h'
          · exact .inr (.inl h'.symm)
          · exact .inr (.inr (.inl h'.symm))
        · exact .inr (.inr (.inr h'))
      have hns : ∀ a, In ns a → ∃ i, a = .anon i ∧ s.fresh + 1 ≤ i := by
        intro a ha
        obtain ⟨x, hx, rfl⟩ := List.mem_map.1 ha
        obtain ⟨i, e1, h3, -⟩ := g1.range x hx
        exact ⟨i, e1, h3⟩
      have hnext : Old (.anon s.fresh) (s.fresh + 1) := ⟨by simp, by simp only [IRes.anon.injEq]; omega⟩
      have hf3 := hext.fresh
      obtain ⟨ns', k1, k2, k3, k4, k4', -, k5, k6⟩ := ih (.anon s.fresh) s2 (by simp) hrun (hr.mono (by omega))
        (hnext.mono (by omega)) g5 g5' (fun _ _ => False) (by simp)
        (by
          intro q hq' e
          exfalso
          rcases hmem1 q hq' with h' | rfl | rfl | h'
          · have := (hb.quads q h').1 _ e; omega
          · have := hh.2 _ e; omega
          · have := hh.2 _ e; omega
          · obtain ⟨i, e1, h3⟩ := hns _ h'
            rw [e1] at e; simp only [IRes.anon.injEq] at e; omega)
        (fun t ht' => by
          have := hb.terms _ (g8 _ t hnext ht') _ rfl
          omega)
        (fun v hv => hne v (List.mem_cons_of_mem _ hv)) (fun v hv => hso v (List.mem_cons_of_mem _ hv))
        (hfr.mono (by omega)) (hfr.one (Nat.le_refl _) (by omega) _)
      have hnode : Nodes F s.fresh (s.fresh + 1) [(IRes.anon s.fresh, none)] := by
        have hno : ∀ t, (IRes.anon s.fresh, t) ∉ F.terms := by
          intro t ht'
          have h4 := (hfr.one (Nat.le_refl s.fresh) (by omega) fun _ _ => False).terms t ht'
          have := hb.terms _ (g8 _ t hnext (k5 _ t (hnext.mono (by omega)) h4)) _ rfl
          omega
        refine ⟨by simp, ?_, by simp, ?_, ?_⟩
        · simp only [List.mem_singleton, forall_eq]
          exact ⟨s.fresh, rfl, Nat.le_refl _, by omega⟩
        · simp only [List.mem_singleton, Prod.mk.injEq, and_true]
          rintro a rfl
          exact hno
        · intro i h1 h2 t _ ht' _
          obtain rfl : i = s.fresh := by omega
          exact absurd ht' (hno t)
      have hin : ∀ q ∈ s'.out, q.s = h → q ∈ s.out ∨ q = lk h first (.anon (s.fresh + 1)) ∨
          q = lk h rest (.anon s.fresh) := by
        intro q hq' e
        rcases k3 q hq' with h' | h' | h'
        · rcases hmem1 q h' with h' | h' | h' | h'
          · exact .inl h'
          · exact .inr (.inl h')
          · exact .inr (.inr h')
          · obtain ⟨i, e1, h3⟩ := hns _ h'
            have := hh.2 i (e.symm.trans e1)
            omega
        · have := hh.2 _ (e.symm.trans h'); omega
        · obtain ⟨x, hx, e'⟩ := List.mem_map.1 h'
          obtain ⟨i, e1, h3, -⟩ := k1.range x hx
          have := hh.2 i (by rw [← e, ← e', e1])
          omega
      have hin' : ∀ q ∈ F.out, q.s = h → ∀ p, q.p = .term p → p = first ∨ p = rest →
          q = lk h first (.anon (s.fresh + 1)) ∨ q = lk h rest (.anon s.fresh) := by
        have hex : ∀ q p, Extra E h q → q.p = .term p → ¬ (p = first ∨ p = rest) := by
          rintro q p ⟨p', o, hE', rfl⟩ ep hp
          simp only [lk, IRes.term.injEq] at ep
          subst ep
          rcases hp with rfl | rfl
          · exact (hE o).1 hE'
          · exact (hE o).2 hE'
        intro q hq' e p ep hp
        rcases hfh.quads q hq' e with h' | h'
        · rcases hin q h' e with h'' | h''
          · exact absurd hp (hex q p (hq q h'' e) ep)
          · exact h''
        · exact absurd hp (hex q p h' ep)
      refine ⟨(IRes.anon s.fresh, none) :: (ns ++ ns'),
        hnode.append (g1.append k1 (by omega) k4) (by omega) (by omega), ?_, ?_, by omega, k4', ?_, ?_, .inl rfl, ?_, hh.1,
        .anon (s.fresh + 1), .anon s.fresh, ?_, ?_, ?_, ?_⟩
      · rw [List.flatMap_cons, ← g2, ← k2, ← idsOf_append]
        rfl
      · intro q hq'
        rcases k3 q hq' with h' | h' | h'
        · rcases hmem1 q h' with h' | rfl | rfl | h'
          · exact .inl h'
          · exact .inr (.inl rfl)
          · exact .inr (.inl rfl)
          · exact .inr (.inr (by simp only [In, List.map_cons, List.map_append, List.mem_cons, List.mem_append]; exact .inr (.inl h')))
        · exact .inr (.inr (by simp only [In, List.map_cons, List.mem_cons]; exact .inl h'))
        · exact .inr (.inr (by simp only [In, List.map_cons, List.map_append, List.mem_cons, List.mem_append]; exact .inr (.inr h')))
      · intro q hq' e
        rcases hin q hq' e with h' | h' | h'
        · exact .inl h'
        · exact .inr ⟨_, .inl h'⟩
        · exact .inr ⟨_, .inr h'⟩
      · exact fun a t ha ht' => g8 a t (ha.mono (by omega)) (k5 a t (ha.mono (by omega)) ht')
      · intro t ht'
        exact ht t (g8 h t (hh.mono (by omega)) (k5 h t (hh.mono (by omega)) (hfh.terms t ht')))
      · refine ⟨hfr.quads _ (hext.quads _ (g7.quads _ (mem_emit.2 (.inr ⟨_, (hds _).2 (.inl rfl), rfl⟩)))),
          fun q hq' e ep => ?_⟩
        rcases hin' q hq' e _ ep (.inl rfl) with rfl | rfl
        · rfl
        · simp only [lk, IRes.term.injEq] at ep; exact absurd ep.symm hfr'
      · refine ⟨hfr.quads _ (hext.quads _ (g7.quads _ (mem_emit.2 (.inr ⟨_, (hds _).2 (.inr rfl), rfl⟩)))),
          fun q hq' e ep => ?_⟩
        rcases hin' q hq' e _ ep (.inr rfl) with rfl | rfl
        · simp only [lk, IRes.term.injEq] at ep; exact absurd ep hfr'
        · rfl
      · refine hM _ _ _ _ _ ?_ g4
        intro a ha
        simp only [In, List.map_cons, List.map_append, List.mem_cons, List.mem_append]
        exact .inr (.inl ha)
      · refine k6.mono ?_ ?_
        · rintro a (rfl | ha)
          · exact .inr (by simp [In])
          · right
            simp only [In, List.map_cons, List.map_append, List.mem_cons, List.mem_append]
            exact .inr (.inr ha)
        · intro a w hw
          refine hM _ _ _ _ _ ?_ hw
          intro a ha
          simp only [In, List.map_cons, List.map_append, List.mem_cons, List.mem_append]
          exact .inr (.inr ha)

end Verif.RoundTrip
