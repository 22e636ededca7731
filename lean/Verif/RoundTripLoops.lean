import Verif.RoundTripRep

/-! # What the loops of dehydration write, for layouts that write trees -/

set_option linter.unusedSectionVars false
set_option linter.unusedSimpArgs false

namespace Verif.RoundTrip

open Dehydrate

/-- What is known of every recursive call. -/
structure RecOk (rec : Rec) : Prop where
  foot : RecFoot rec
  ext : ∀ v g ref ins s, Extends s (rec v g ref ins s).2

theorem extends_rel : StepRel Extends where
  refl s := ⟨fun _ h => h, fun _ h => h, Nat.le_refl _⟩
  trans a b c h1 h2 := ⟨fun q h => h2.quads q (h1.quads q h), fun e h => h2.terms e (h1.terms e h),
    Nat.le_trans h1.fresh h2.fresh⟩
  fresh s := ⟨fun _ h => h, fun _ h => h, Nat.le_succ _⟩
  insert s q := ⟨fun q h => mem_insertQuad.2 (.inl h), fun _ h => h, Nat.le_refl _⟩
  assign s r t := ⟨fun _ h => h, fun e h => by
    simp only
    split
    · exact h
    · exact List.mem_append_left _ h, Nat.le_refl _⟩

theorem recOk (c : DeCtx) (n : Nat) : RecOk (dehydrateWith c n) where
  foot := foot_dehydrateWith c n
  ext v g ref ins s := pres_dehydrateWith extends_rel c n v g ref ins s

variable {c : DeCtx} {F : DeState} {S : Term → Prop} {rec : Rec} {ids : Term → Value → List String}
  {M : (IRes → Prop) → Term → IRes → Value → Prop}

/-- What a call from a new resource `r` achieves. `E` is what is said about `r` by others. -/
def RunSpec (c : DeCtx) (F : DeState) (S : Term → Prop) (rec : Rec) (ids : Term → Value → List String)
    (M : (IRes → Prop) → Term → IRes → Value → Prop) : Prop :=
  ∀ ref r v s s' (E : Term → Term → Prop), S ref → Recoverable c.reg ref v → v.Sorted →
    rec v none ref [r] s = (.ok (), s') → Old r s.fresh → Bounded s → NoTerms s →
    (∀ q ∈ s.out, q.s = r → Extra E r q) → (∀ p o, E p o → ¬ LayoutReads c.reg p ref) → (∀ t, (r, t) ∉ s.terms) →
    Fr F s.fresh s' → FrR F E r s' →
    ∃ own ns, Own F r own ∧ Nodes F s.fresh s'.fresh ns ∧ idsOf (own ++ ns) = ids ref v ∧
      (∀ q ∈ s'.out, q ∈ s.out ∨ In (own ++ ns) q.s) ∧ M (In (own ++ ns)) ref r v ∧ NoTerms s' ∧
      (∀ q ∈ s'.out, q.s = r → q ∈ s.out ∨ Written c.reg ref r q) ∧ Kind c.reg F own r ref

/-- What a call achieves for a child, created just before. -/
theorem child (hR : RunSpec c F S rec ids M) (hok : RecOk rec) {lo i : Nat} {s1 s2 s' : DeState} {A : IRes → Prop}
    {v : Value} {ref : Term} (hcall : rec v none ref [.anon i] s1 = (.ok (), s2)) (h1 : lo ≤ i) (h2 : s1.fresh = i + 1)
    (hb : Bounded s1) (hk : NoTerms s1) (hq : ∀ q ∈ s1.out, q.s ≠ .anon i) (ht : ∀ t, (IRes.anon i, t) ∉ s1.terms) (hS : S ref)
    (hne : Recoverable c.reg ref v) (hso : v.Sorted) (hfr : Fr F lo s') (hfoot : Footprint A s2.fresh s2 s')
    (hext : Extends s2 s') (hA : ∀ i, A (.anon i) → i < lo) :
    ∃ ns, Nodes F i s2.fresh ns ∧ idsOf ns = ids ref v ∧ (∀ q ∈ s2.out, q ∈ s1.out ∨ In ns q.s) ∧
      M (In ns) ref (.anon i) v ∧ Bounded s2 ∧ NoTerms s2 ∧ Footprint (· = .anon i) s1.fresh s1 s2 ∧ Extends s1 s2 := by
  have hext2 : Extends s1 s2 := by have := hok.ext v none ref [.anon i] s1; rwa [hcall] at this
  have hfoot2 : Footprint (· = .anon i) s1.fresh s1 s2 := by
    have := hok.foot (· = .anon i) s1.fresh v none ref [.anon i] s1 (Nat.le_refl _)
      (by simp only [List.mem_singleton, forall_eq]; exact .inl rfl)
    rwa [hcall] at this
  have hfr2 : Fr F lo s2 := hfr.shrink hfoot hext hA
  have hfresh := hext2.fresh
  obtain ⟨own, ns, h3, h4, h5, h6, h7, h8, -, -⟩ := hR ref (.anon i) v s1 s2 (fun _ _ => False) hS hne hso hcall
    ⟨by simp, by simp only [IRes.anon.injEq]; rintro j rfl; omega⟩ hb hk (fun q h e => absurd e (hq q h))
    (fun _ _ h => h.elim) ht (hfr2.mono (by omega)) (hfr2.one h1 (by omega) _)
  refine ⟨own ++ ns, h3.nodes h4 h2 hfresh, h5, h6, h7, bounded_foot hfoot2 ?_ hb, h8, hfoot2, hext2⟩
  simp only [IRes.anon.injEq]
  rintro j rfl
  omega

/-! ## Linked children -/

/-- The state after creating a child of `r` linked by the property `p`. -/
def linked (r : IRes) (p : Term) (s : DeState) : DeState := emit (scope [r] 1 s) [linkPat 0 1 p] (alloc 1 s)

theorem quadInst_link (r : IRes) (p : Term) (s : DeState) :
    quadInst (scope [r] 1 s) (linkPat 0 1 p) = lk r p (.anon s.fresh) := rfl

theorem mem_linked {r : IRes} {p : Term} {s : DeState} {q : Quad IRes} :
    q ∈ (linked r p s).out ↔ q ∈ s.out ∨ q = lk r p (.anon s.fresh) := by
  simp only [linked, mem_emit, alloc_out, List.mem_singleton, exists_eq_left, quadInst_link, eq_comm]

theorem linked_fresh (r : IRes) (p : Term) (s : DeState) : (linked r p s).fresh = s.fresh + 1 := rfl
theorem linked_terms (r : IRes) (p : Term) (s : DeState) : (linked r p s).terms = s.terms := rfl

theorem bounded_linked {r : IRes} {p : Term} {s : DeState} (hr : Old r s.fresh) (hb : Bounded s) :
    Bounded (linked r p s) where
  quads q hq := by
    rw [linked_fresh]
    rcases mem_linked.1 hq with h | rfl
    · exact (hb.quads q h).mono fun r hr i e => Nat.lt_succ_of_lt (hr i e)
    · refine ⟨fun i e => Nat.lt_succ_of_lt (hr.2 i e), ?_, ?_, ?_⟩
      · simp [lk]
      · simp only [lk, IRes.anon.injEq]; omega
      · simp [lk]
  terms e he i hi := by
    rw [linked_fresh]
    exact Nat.lt_succ_of_lt (hb.terms e he i hi)

theorem call_link {r : IRes} {fmt : ValueFormat Term} (h : fmt.IsVar 1) (s : DeState) (v : Value) :
    call rec none fmt (scope [r] 1 s) v = rec v none fmt.layout [.anon s.fresh] := by
  unfold call
  rw [h.1, h.2]
  rfl

/-- One linked child. -/
theorem link_step (hR : RunSpec c F S rec ids M) (hok : RecOk rec) {r : IRes} {p : Term} {s s2 s' : DeState} {v : Value}
    {ref : Term} (hcall : rec v none ref [.anon s.fresh] (linked r p s) = (.ok (), s2)) (hr : Old r s.fresh)
    (hb : Bounded s) (hk : NoTerms s) (hS : S ref) (hne : Recoverable c.reg ref v) (hso : v.Sorted) (hfr : Fr F s.fresh s')
    (hfoot : Footprint (· = r) s2.fresh s2 s') (hext : Extends s2 s') :
    ∃ ns, Nodes F s.fresh s2.fresh ns ∧ idsOf ns = ids ref v ∧
      (∀ q ∈ s2.out, q ∈ s.out ∨ q.s = r ∨ In ns q.s) ∧ M (In ns) ref (.anon s.fresh) v ∧ Bounded s2 ∧ NoTerms s2 ∧
      s.fresh ≤ s2.fresh ∧ lk r p (.anon s.fresh) ∈ s2.out ∧
      (∀ q ∈ s2.out, q.s = r → q ∈ s.out ∨ q = lk r p (.anon s.fresh)) ∧ ∀ t, (r, t) ∈ s2.terms → (r, t) ∈ s.terms := by
  have hne' : r ≠ .anon s.fresh := fun e => absurd (hr.2 _ e) (by omega)
  obtain ⟨ns, h1, h2, h3, h4, h5, h5', h6, h7⟩ := child hR hok hcall (Nat.le_refl _) (by rw [linked_fresh])
    (bounded_linked hr hb) hk
    (by
      intro q hq e
      rcases mem_linked.1 hq with h | rfl
      · exact absurd ((hb.quads q h).1 _ e) (by omega)
      · exact hne' e)
    (fun t ht => absurd (hb.terms _ ht _ rfl) (by omega)) hS hne hso hfr hfoot hext
    (by rintro i rfl; exact hr.2 i rfl)
  refine ⟨ns, h1, h2, ?_, h4, h5, h5', ?_, h7.quads _ (mem_linked.2 (.inr rfl)), ?_, ?_⟩
  · intro q hq
    rcases h3 q hq with h | h
    · rcases mem_linked.1 h with h | rfl
      · exact .inl h
      · exact .inr (.inl rfl)
    · exact .inr (.inr h)
  · have := h7.fresh
    rw [linked_fresh] at this
    omega
  · intro q hq e
    rcases h6.quads q hq with h | h
    · exact mem_linked.1 h
    · exfalso
      rcases h.1 with h | ⟨t, h⟩ | ⟨j, h, hj, -⟩
      · exact hne' (e.symm.trans h)
      · exact hr.1 t (e.symm.trans h)
      · rw [linked_fresh] at hj
        exact absurd (hr.2 j (e.symm.trans h)) (by omega)
  · intro t ht
    rcases h6.terms _ ht with h | h
    · exact h
    · exfalso
      rcases h with h | ⟨t, h⟩ | ⟨j, h, hj, -⟩
      · exact hne' h
      · exact hr.1 t h
      · rw [linked_fresh] at hj
        exact absurd (hr.2 j h) (by omega)

theorem patsBelow_link (k a b : Nat) (p : Term) (ha : a < k) (hb : b < k) : PatsBelow k [linkPat a b p] := by
  simp [PatsBelow, patsVars, QuadPat.vars, linkPat, Pattern.vars, ha, hb]

theorem ItemLayout.IsLink.closed {item : ItemLayout Term} {p : Term} (h : item.IsLink p) : item.Closed 2 := by
  obtain ⟨-, h2, h3, h4⟩ := h
  refine ⟨by rw [h2]; exact patsBelow_link 2 0 1 p (by omega) (by omega), ?_, ?_⟩
  · rw [h3]; simp [Pattern.Below, Pattern.vars]
  · rw [h4]; simp

theorem envIn_root (r : IRes) (lo hi : Nat) : EnvIn (Known (· = r) lo hi) (.child (.root [r]) (freshList 0 0)) := by
  intro x hx
  have : x = r := by simpa [Env.flat, freshList] using hx
  exact .inl this

/-- An environment with one resource. -/
def IsEnv (env : Env IRes) (r : IRes) : Prop := env.flat = [r]

theorem IsEnv.envIn {env : Env IRes} {r : IRes} (h : IsEnv env r) (lo hi : Nat) :
    EnvIn (Known (· = r) lo hi) env := by
  intro x hx
  rw [h] at hx
  simp only [List.mem_singleton] at hx
  exact .inl hx

/-- The items of a set. -/
theorem items_run (hR : RunSpec c F S rec ids M) (hM : ∀ N N' ref r v, (∀ r, N r → N' r) → M N ref r v → M N' ref r v)
    (hok : RecOk rec) {r : IRes} {p : Term} {env : Env IRes} (henv : IsEnv env r) {item : ItemLayout Term}
    (hlink : item.IsLink p) (hS : S item.value.layout) (vs : List Value) (s s' : DeState)
    (hrun : items rec none env item vs s = (.ok (), s')) (hr : Old r s.fresh) (hb : Bounded s) (hk : NoTerms s)
    (hne : ∀ v ∈ vs, Recoverable c.reg item.value.layout v) (hso : ∀ v ∈ vs, v.Sorted) (hfr : Fr F s.fresh s') :
    ∃ ns xs, Nodes F s.fresh s'.fresh ns ∧ idsOf ns = vs.flatMap (ids item.value.layout) ∧
      (∀ q ∈ s'.out, q ∈ s.out ∨ q.s = r ∨ In ns q.s) ∧
      List.Forall₂ (M (In ns) item.value.layout) xs vs ∧ s.fresh ≤ s'.fresh ∧ Bounded s' ∧ NoTerms s' ∧
      (∀ x ∈ xs, lk r p x ∈ s'.out) ∧ (∀ q ∈ s'.out, q.s = r → q ∈ s.out ∨ ∃ x ∈ xs, q = lk r p x) ∧
      ∀ t, (r, t) ∈ s'.terms → (r, t) ∈ s.terms := by
  induction vs generalizing s with
  | nil =>
    simp only [items, DeM.pure, Prod.mk.injEq, true_and] at hrun
    subst hrun
    exact ⟨[], [], .nil _, rfl, fun q h => .inl h, .nil, Nat.le_refl _, hb, hk, by simp, fun q h _ => .inl h, fun t h => h⟩
  | cons v vs ih =>
    rw [items_cons (by rw [henv, hlink.1]; exact ItemLayout.IsLink.closed hlink)] at hrun
    rw [hlink.1, hlink.2.1, henv, call_link hlink.2.2] at hrun
    change DeM.bind _ _ (linked r p s) = _ at hrun
    rcases hc : rec v none item.value.layout [.anon s.fresh] (linked r p s) with ⟨a | e | _ | _, s2⟩
    · rw [DeM.bind_ok (a := a) (s' := s2) hc] at hrun
      have hfoot : Footprint (· = r) s2.fresh s2 s' := by
        have := foot_items (A := (· = r)) hok.foot none item vs (Nat.le_refl s2.fresh) (henv.envIn _ _)
        rwa [hrun] at this
      have hext : Extends s2 s' := by
        have := pres_items extends_rel (fun v g ref ins s => hok.ext v g ref ins s) none env item vs s2
        rwa [hrun] at this
      obtain ⟨ns, h1, h2, h3, h4, h5, h5', h6, h7, h8, h9⟩ := link_step hR hok hc hr hb hk hS (hne v (by simp))
        (hso v (by simp)) hfr hfoot hext
      obtain ⟨ns', xs, g1, g2, g3, g4, g5, g5', g5'', g6, g7, g8⟩ := ih s2 hrun (hr.mono h6) h5 h5'
        (fun v hv => hne v (List.mem_cons_of_mem _ hv)) (fun v hv => hso v (List.mem_cons_of_mem _ hv)) (hfr.mono h6)
      refine ⟨ns ++ ns', .anon s.fresh :: xs, h1.append g1 h6 g5, ?_, ?_, ?_, Nat.le_trans h6 g5, g5', g5'', ?_, ?_, ?_⟩
      · rw [idsOf_append, h2, g2, List.flatMap_cons]
      · intro q hq
        rcases g3 q hq with h | h | h
        · rcases h3 q h with h | h | h
          · exact .inl h
          · exact .inr (.inl h)
          · exact .inr (.inr (in_append.2 (.inl h)))
        · exact .inr (.inl h)
        · exact .inr (.inr (in_append.2 (.inr h)))
      · exact .cons (hM _ _ _ _ _ (fun _ h => in_append.2 (.inl h)) h4)
          (g4.imp fun _ _ => hM _ _ _ _ _ fun _ h => in_append.2 (.inr h))
      · simp only [List.mem_cons, forall_eq_or_imp]
        exact ⟨hext.quads _ h7, g6⟩
      · intro q hq e
        rcases g7 q hq e with h | ⟨x, hx, h⟩
        · rcases h8 q h e with h | h
          · exact .inl h
          · exact .inr ⟨_, by simp, h⟩
        · exact .inr ⟨x, by simp [hx], h⟩
      · exact fun t ht => h9 t (g8 t ht)
    all_goals (simp only [DeM.bind, hc] at hrun; simp at hrun)

/-- The items of a sized list. -/
theorem sizedItems_run (hR : RunSpec c F S rec ids M)
    (hM : ∀ N N' ref r v, (∀ r, N r → N' r) → M N ref r v → M N' ref r v)
    (hok : RecOk rec) {r : IRes} {env : Env IRes} (henv : IsEnv env r) (is : List (ItemLayout Term))
    (hlink : ∀ i ∈ is, ∃ p, i.IsLink p) (hS : ∀ i ∈ is, S i.value.layout) (vs : List Value) (s s' : DeState)
    (hrun : sizedItems rec none env vs is s = (.ok (), s')) (hr : Old r s.fresh) (hb : Bounded s) (hk : NoTerms s)
    (hne : ∀ e ∈ is.zip vs, Recoverable c.reg e.1.value.layout e.2) (hso : ∀ v ∈ vs, v.Sorted)
    (hfr : Fr F s.fresh s') :
    ∃ ns, ∃ xs : List IRes, Nodes F s.fresh s'.fresh ns ∧
      idsOf ns = (is.zip vs).flatMap (fun e => ids e.1.value.layout e.2) ∧
      (∀ q ∈ s'.out, q ∈ s.out ∨ q.s = r ∨ In ns q.s) ∧
      List.Forall₂ (fun (e : ItemLayout Term × IRes) v => M (In ns) e.1.value.layout e.2 v) (is.zip xs) vs ∧
      xs.length = is.length ∧ s.fresh ≤ s'.fresh ∧ NoTerms s' ∧
      (∀ e ∈ is.zip xs, ∀ p, e.1.IsLink p → lk r p e.2 ∈ s'.out) ∧
      (∀ q ∈ s'.out, q.s = r → q ∈ s.out ∨ ∃ e ∈ is.zip xs, ∃ p, e.1.IsLink p ∧ q = lk r p e.2) ∧
      ∀ t, (r, t) ∈ s'.terms → (r, t) ∈ s.terms := by
  induction vs generalizing s is with
  | nil =>
    cases is with
    | cons i is => simp [sizedItems, DeM.fail] at hrun
    | nil =>
      simp only [sizedItems, DeM.pure, Prod.mk.injEq, true_and] at hrun
      subst hrun
      exact ⟨[], [], .nil _, rfl, fun q h => .inl h, .nil, rfl, Nat.le_refl _, hk, by simp, fun q h _ => .inl h, fun t h => h⟩
  | cons v vs ih =>
    cases is with
    | nil => simp [sizedItems, DeM.fail] at hrun
    | cons item is =>
      obtain ⟨p, hl⟩ := hlink item (by simp)
      rw [sizedItems_cons (by rw [henv, hl.1]; exact ItemLayout.IsLink.closed hl)] at hrun
      rw [hl.1, hl.2.1, henv, call_link hl.2.2] at hrun
      change DeM.bind _ _ (linked r p s) = _ at hrun
      rcases hc : rec v none item.value.layout [.anon s.fresh] (linked r p s) with ⟨a | e | _ | _, s2⟩
      · rw [DeM.bind_ok (a := a) (s' := s2) hc] at hrun
        have hfoot : Footprint (· = r) s2.fresh s2 s' := by
          have := foot_sizedItems (A := (· = r)) hok.foot none vs is (Nat.le_refl s2.fresh) (henv.envIn _ _)
          rwa [hrun] at this
        have hext : Extends s2 s' := by
          have := pres_sizedItems extends_rel (fun v g ref ins s => hok.ext v g ref ins s) none env vs is s2
          rwa [hrun] at this
        obtain ⟨ns, h1, h2, h3, h4, h5, h5', h6, h7, h8, h9⟩ := link_step hR hok hc hr hb hk (hS item (by simp))
          (hne (item, v) (by simp)) (hso v (by simp)) hfr hfoot hext
        obtain ⟨ns', xs, g1, g2, g3, g4, g5, g6, g6', g7, g8, g9⟩ := ih is (fun i hi => hlink i (List.mem_cons_of_mem _ hi))
          (fun i hi => hS i (List.mem_cons_of_mem _ hi)) s2 hrun (hr.mono h6) h5 h5'
          (fun e he => hne e (by rw [List.zip_cons_cons]; exact List.mem_cons_of_mem _ he))
          (fun v hv => hso v (List.mem_cons_of_mem _ hv)) (hfr.mono h6)
        have huniq : ∀ p', item.IsLink p' → p' = p := by
          intro p' hl'
          have := hl.2.1.symm.trans hl'.2.1
          simp only [linkPat, List.cons.injEq, Quad.mk.injEq, Pattern.res.injEq, and_true, true_and] at this
          exact this.symm
        refine ⟨ns ++ ns', .anon s.fresh :: xs, h1.append g1 h6 g6, ?_, ?_, ?_, by simp [g5], Nat.le_trans h6 g6, g6', ?_, ?_,
          ?_⟩
        · rw [idsOf_append, h2, g2, List.zip_cons_cons, List.flatMap_cons]
        · intro q hq
          rcases g3 q hq with h | h | h
          · rcases h3 q h with h | h | h
            · exact .inl h
            · exact .inr (.inl h)
            · exact .inr (.inr (in_append.2 (.inl h)))
          · exact .inr (.inl h)
          · exact .inr (.inr (in_append.2 (.inr h)))
        · rw [List.zip_cons_cons]
          exact .cons (hM _ _ _ _ _ (fun _ h => in_append.2 (.inl h)) h4)
            (g4.imp fun _ _ => hM _ _ _ _ _ fun _ h => in_append.2 (.inr h))
        · simp only [List.zip_cons_cons, List.mem_cons, forall_eq_or_imp]
          exact ⟨fun p' hl' => by rw [huniq p' hl']; exact hext.quads _ h7, g7⟩
        · intro q hq e
          rcases g8 q hq e with h | ⟨x, hx, h⟩
          · rcases h8 q h e with h | h
            · exact .inl h
            · exact .inr ⟨(item, .anon s.fresh), by simp, p, hl, h⟩
          · exact .inr ⟨x, by rw [List.zip_cons_cons]; exact List.mem_cons_of_mem _ hx, h⟩
        · exact fun t ht => h9 t (g9 t ht)
      all_goals (simp only [DeM.bind, hc] at hrun; simp at hrun)

end Verif.RoundTrip
