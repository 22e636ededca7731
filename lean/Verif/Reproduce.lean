import Verif.ReproduceRun
import Mathlib.Data.List.Perm.Basic

/-! # Writing back what was read: the recursion -/

set_option linter.unusedSectionVars false
set_option linter.unusedSimpArgs false

namespace Verif.Reproduce

open Verif.Dehydrate Verif.RoundTrip

variable {P : Term → Prop} {ds : List (Quad Term)}

/-- The start of a layout with parts. -/
theorem container_step {x : Xsd} {reg : Registry Term} {le : TypedValue Term → TypedValue Term → Bool} (hP : Domain P reg ds) {pats : List (QuadPat Term)} {intro' : Nat}
    {ins : List Term} {dins : List IRes} {σ : Subst Term} {h : IRes → Term} (hterm : ∀ t, h (.term t) = t)
    (hins : dins.map h = ins) (hPi : ∀ t ∈ ins, P t) {s : DeState} (hρ : ∀ r ∈ dins, Old s.fresh r)
    (hm : UniqueMatch ds (ins.map some ++ List.replicate intro' none) (inGraph none pats) σ)
    (hb : ∀ y, dins.length ≤ y → y < dins.length + intro' → y ∈ patsVars pats) :
    Total σ ∧ ∃ h', Step x P ds h s h' (emit (scope dins intro' s) pats (alloc intro' s)) ∧
      Stands P h' (scope dins intro' s) σ ∧ (∀ t, h' (.term t) = t) ∧
      (∀ r ∈ scope dins intro' s, Old (emit (scope dins intro' s) pats (alloc intro' s)).fresh r) ∧
      ∀ K (j : Nat) U, View reg x le ds K U → Fits K U h' (emit (scope dins intro' s) pats (alloc intro' s)) → (∀ r ∈ dins, U r) →
        UniqueMatch K.ds (ins.map some ++ List.replicate intro' none) (inGraph none pats) σ ∧
        Covers U (scope dins intro' s) σ := by
  have huniq := hm
  have hm := hm.1
  rw [inGraph_none] at hm
  obtain ⟨h', st, hst⟩ := enter (x := x) hP hterm hρ (stands_inputs hins hPi) (total_inputs ins) hm
  refine ⟨total_of_binds (total_inputs ins) hm ?_, h', st, hst, st.term hterm, old_scope hρ, ?_⟩
  rotate_left
  · intro K j U hv hfit hU
    obtain ⟨hm1, hc1⟩ := hfit.entered hρ (st.term hterm) hst hm
    exact ⟨uniqueMatch_sub hv.part.ds huniq (by rw [inGraph_none]; exact hm1),
      hc1 (covers_scope (by rw [← hins]; simp) (covers_inputs hins hU) _ _)⟩
  intro y h1 h2
  have hl : ins.length = dins.length := by rw [← hins]; simp
  rw [List.length_map] at h1 h2
  exact hb y (by omega) (by omega)

theorem split_variant {vs : List (Variant Term)} {i : Nat} {y : Variant Term} (h : vs[i]? = some y) :
    ∃ before after, vs = before ++ y :: after ∧
      ∀ z ∈ before ++ after, ∃ j, vs[j]? = some z ∧ j ≠ i := by
  have hi : i < vs.length := by
    by_contra hc
    rw [List.getElem?_eq_none (by omega)] at h
    exact nomatch h
  have hy : vs[i] = y := by rw [List.getElem?_eq_getElem hi] at h; exact Option.some.inj h
  refine ⟨vs.take i, vs.drop (i + 1), ?_, ?_⟩
  · rw [← hy, List.getElem_cons_drop, List.take_append_drop]
  · intro z hz
    rcases List.mem_append.1 hz with hz | hz
    · obtain ⟨j, hj⟩ := List.mem_iff_getElem?.1 hz
      have hlt : j < i := by
        by_contra hc
        rw [List.getElem?_eq_none (by rw [List.length_take]; omega)] at hj
        exact nomatch hj
      refine ⟨j, ?_, by omega⟩
      rwa [List.getElem?_take_of_lt hlt] at hj
    · obtain ⟨j, hj⟩ := List.mem_iff_getElem?.1 hz
      rw [List.getElem?_drop] at hj
      exact ⟨_, hj, by omega⟩

/-- The tree read through a layout, written through the same layout. -/
theorem back (c : DeCtx) (le : TypedValue Term → TypedValue Term → Bool) (hcl : c.reg.Closed) (hkeys : c.reg.DistinctKeys)
    (hrev : c.reg.Reversible) (hP : Domain P c.reg ds) (n m : Nat) :
    Back c.xsd P ds c.reg le (Meaning (HyCtx.ofTerms c.reg c.xsd le ds) m) (fun K k => Meaning K (m + k)) (dehydrateWith c n) := by
  induction n generalizing m with
  | zero => intro g ref ins dins v s s' h _ _ hrun; exact nomatch hrun
  | succ n ihn =>
    intro g ref ins dins v s s' h hm hd hrun hterm hins hρ hPi
    cases m with
    | zero => exact absurd hm id
    | succ m =>
    have hrec := ihn m
    obtain ⟨l, hl, hcount, hm⟩ := hm
    replace hl : c.reg ref = some l := hl
    have hcount' : ∀ k, l.inputCount = some k → dins.length = k := by
      intro k hk
      rw [← hcount k hk, ← hins, List.length_map]
    have hcl' := hcl ref l hl
    have hb := hrev.binds ref l hl
    have hg := hrev.graph ref l hl
    have hconst : ∀ t, l.HasConstant t → c.reg.HasConstant t := fun t ht => ⟨ref, l, hl, ht⟩
    have hcount0 := hcount
    have again : ∀ {h' : IRes → Term} {s' : DeState}, Step c.xsd P ds h s h' s' →
        (∀ K (j : Nat) U, View c.reg c.xsd le ds K U → Fits K U h' s' → (∀ r ∈ dins, U r) →
          LayoutMeaning K (Meaning K (m + j)) none ref ins v l) →
        ∃ h', Step c.xsd P ds h s h' s' ∧ ∀ K (j : Nat) U, View c.reg c.xsd le ds K U → Fits K U h' s' → (∀ r ∈ dins, U r) →
          Meaning K (m + 1 + j) none ref ins v := fun st hre =>
      ⟨_, st, fun K j U hv hfit hU => by
        rw [Nat.add_right_comm]
        exact ⟨l, by rw [hv.part.reg]; exact hl, hcount0, hre K j U hv hfit hU⟩⟩
    unfold dehydrateWith at hrun
    rw [hl] at hrun
    simp only at hrun
    split at hrun
    · exact nomatch hrun
    clear hcount
    cases l with
    | never => exact absurd hm id
    | always =>
      simp only [layout, DeM.pure, Prod.mk.injEq, true_and] at hrun
      subst hrun
      exact again (Step.refl h s) fun K j U _ _ _ => hm
    | unit l =>
      obtain ⟨⟨σ, huniq⟩, rfl⟩ := hm
      have h1 := hcount' 1 rfl
      simp only [layout] at hrun
      rw [if_pos (by rfl)] at hrun
      have hmatch := huniq.1
      rw [inGraph_none] at hmatch
      obtain ⟨h', st, hst⟩ := enter (x := c.xsd) hP hterm hρ (stands_inputs hins hPi) (total_inputs ins) hmatch
      rw [intro_bind, instDataset_eq (by rw [length_flat_child]; change PatsBelow (dins.length + _) _; rw [h1]; exact hcl')] at hrun
      simp only [Prod.mk.injEq, true_and] at hrun
      subst hrun
      refine again st fun K j U hv hfit hU => ⟨⟨σ, ?_⟩, rfl⟩
      exact uniqueMatch_sub hv.part.ds huniq (by rw [inGraph_none]; exact (hfit.entered hρ (st.term hterm) hst hmatch).1)
    | boolean l =>
      obtain ⟨b, hm, rfl⟩ := hm
      refine Exists.elim (data_step hP hm hcl'.1 hcl'.2 (hcount' 1 rfl) (fun t ht => hconst t (.inr (.inl ht)))
        (hconst _ (.inr (.inr rfl))) hterm hins hPi hρ ?_ hrun) ?_
      rotate_left
      · rintro h' ⟨st, hre⟩
        refine again st fun K j U hv hfit hU => ⟨b, hre K j U hv hfit hU _ ?_, rfl⟩
        intro text i rest r hp hl
        unfold Hydrate.booleanValue at hp ⊢
        split at hp
        · rename_i hi
          change i = c.xsd.boolean at hi
          subst hi
          simp only [booleanLit, List.find?_cons, beq_self_eq_true] at hl
          injection hl with hl
          subst hl
          refine ⟨rfl, ?_⟩
          rw [hv.part.xsd]
          change (if c.xsd.boolean = c.xsd.boolean then Out.ofOption (c.xsd.parseBoolean (c.xsd.printBoolean b)) else _) = _
          rw [if_pos rfl, hv.laws.bool]
          rfl
        · exact nomatch hp
      intro text i rest r hp hl
      unfold Hydrate.booleanValue at hp
      split at hp
      · rename_i hi
        change i = c.xsd.boolean at hi
        subst hi
        simp only [booleanLit, List.find?_cons, beq_self_eq_true] at hl
        injection hl with hl
        subst hl
        refine .boolean ?_
        change Out.ofOption (c.xsd.parseBoolean text) = _ at hp
        cases hpb : c.xsd.parseBoolean text with
        | none => rw [hpb] at hp; exact nomatch hp
        | some b' => rw [hpb] at hp; injection hp with hp; rw [hp]
      · exact nomatch hp
    | number l =>
      obtain ⟨q, hm, rfl⟩ := hm
      refine Exists.elim (data_step hP hm hcl'.1 hcl'.2 (hcount' 1 rfl) (fun t ht => hconst t (.inr (.inl ht)))
        (hconst _ (.inr (.inr rfl))) hterm hins hPi hρ ?_ hrun) ?_
      rotate_left
      · rintro h' ⟨st, hre⟩
        refine again st fun K j U hv hfit hU => ⟨q, hre K j U hv hfit hU _ ?_, rfl⟩
        intro text i rest r hp hl
        unfold Hydrate.numberValue at hp ⊢
        split at hp
        · rename_i hi
          change c.xsd.isDecimal i = true at hi
          simp only [numberLit, List.find?_cons, hi] at hl
          cases hpq : c.xsd.printDecimal q with
          | none => rw [hpq] at hl; exact nomatch hl
          | some text' =>
            rw [hpq] at hl
            injection hl with hl
            subst hl
            refine ⟨rfl, ?_⟩
            rw [hv.part.xsd]
            change (if c.xsd.isDecimal i = true then Out.ofOption (c.xsd.parseDecimal text') else _) = _
            rw [if_pos hi, hv.laws.decimal _ _ hpq]
            rfl
        · exact nomatch hp
      intro text i rest r hp hl
      unfold Hydrate.numberValue at hp
      split at hp
      · rename_i hi
        change c.xsd.isDecimal i = true at hi
        simp only [numberLit, List.find?_cons, hi] at hl
        cases hpq : c.xsd.printDecimal q with
        | none => rw [hpq] at hl; exact nomatch hl
        | some text' =>
          rw [hpq] at hl
          injection hl with hl
          subst hl
          refine .number hi ?_ hpq
          change Out.ofOption (c.xsd.parseDecimal text) = _ at hp
          cases hpb : c.xsd.parseDecimal text with
          | none => rw [hpb] at hp; exact nomatch hp
          | some b' => rw [hpb] at hp; injection hp with hp; rw [hp]
      · exact nomatch hp
    | byteString l =>
      obtain ⟨b, hm, rfl⟩ := hm
      obtain ⟨_, _, _, _, _, _, _, _, hp⟩ := hm
      exact nomatch hp
    | textString l =>
      obtain ⟨t, hm, rfl⟩ := hm
      refine Exists.elim (data_step hP hm hcl'.1 hcl'.2 (hcount' 1 rfl) (fun t ht => hconst t (.inr (.inl ht)))
        (hconst _ (.inr (.inr rfl))) hterm hins hPi hρ ?_ hrun) ?_
      rotate_left
      · rintro h' ⟨st, hre⟩
        refine again st fun K j U hv hfit hU => ⟨t, hre K j U hv hfit hU _ ?_, rfl⟩
        intro text i rest r hp hl
        injection hp with hp
        subst hp
        simp only [textLit] at hl
        injection hl with hl
        subst hl
        exact ⟨rfl, rfl⟩
      intro text i rest r hp hl
      injection hp with hp
      subst hp
      simp only [textLit] at hl
      injection hl with hl
      subst hl
      exact .same _
    | id l =>
      obtain ⟨σ, r, iri, huniq, hden, hiri, rfl⟩ := hm
      have h1 := hcount' 1 rfl
      replace hrun : ident c dins l iri s = (.ok (), s') := hrun
      rw [ident_eq (by rw [h1]; exact hcl'.1) (by rw [h1]; exact hcl'.2)] at hrun
      have hmatch := huniq.1
      rw [inGraph_none] at hmatch
      obtain ⟨h', st, hst⟩ := enter (x := c.xsd) hP hterm hρ (stands_inputs hins hPi) (total_inputs ins) hmatch
      have hr := hst.inst (st.term hterm) hden
      have hr' : r = .iri iri := by
        cases r <;> simp only [HyCtx.ofTerms, List.cons.injEq, and_true, reduceCtorEq] at hiri
        rw [hiri]
      split at hrun
      · have st' := assign_step (x := c.xsd) (P := P) (ds := ds) (h := h') (old_inst (old_scope hρ) l.resource) (by
          rw [hr]
          cases hres : l.resource with
          | res t => rw [hres] at hden; cases hden; exact hP.constants _ (hconst _ (.inr hres))
          | var y => rw [hres] at hden; exact (hst.get y _ hden).2) (by rw [hr, hr']; exact .same _) hrun
        refine again (st.trans st') fun K j U hv hfit hU => ?_
        obtain ⟨hm1, hc1⟩ := (hfit.back st').entered hρ (st.term hterm) hst hmatch
        have hc1 := hc1 (covers_scope (by rw [← hins]; simp) (covers_inputs hins hU) _ _)
        obtain ⟨_, hf2, hmem⟩ := mem_assign hrun
        obtain ⟨hi2, _⟩ := hfit.terms _ ((hmem _).2 (.inr rfl)) (by rw [hf2]; exact old_inst (old_scope hρ) _)
          (hc1.inst hden fun t ht => hv.const t (hconst t (.inr ht)))
        rw [hr] at hi2
        exact ⟨σ, r, iri, uniqueMatch_sub hv.part.ds huniq (by rw [inGraph_none]; exact hm1), hden, hi2, rfl⟩
      · exact nomatch hrun
    | product l =>
      obtain ⟨σ, mm, hmatch, hfields, rfl⟩ := hm
      have hlen := hcount' _ rfl
      obtain ⟨htot, h', st, hst, ht', hρ', hopen⟩ := container_step (x := c.xsd) (le := le) hP hterm hins hPi hρ hmatch (by rw [hlen]; exact hb)
      simp only [layout, TypedValue.untype] at hrun
      rw [intro_emit (by change PatsBelow (dins.length + _) _; rw [hlen]; exact hcl'.1), DeM.bind_eq_ok] at hrun
      obtain ⟨⟨⟩, s1, h1, h2⟩ := hrun
      obtain rfl := requireKeys_state h2
      have hfl : (Env.child (.root dins) (freshList s.fresh l.intro)).flat = scope dins l.intro s := rfl
      cases hd with
      | map hd =>
      obtain ⟨h'', st', hre⟩ := entries_step hP hrec (hkeys ref l hl) (env := .child (.root dins) (freshList s.fresh l.intro))
        (by rw [hfl, length_scope, hlen]; exact hcl'.2)
        (fun e he => ⟨fun t ht => hconst t (.inr ⟨e, he, .inr (.inl ht)⟩), hg _ (List.mem_map_of_mem (f := fun e => e.2.value) he)⟩)
        htot hfields (fun _ h => h) hd ht' (by rw [hfl]; exact hρ') (by rw [hfl]; exact hst) h1
      refine again (st.trans st') fun K j U hv hfit hU => ?_
      obtain ⟨hm1, hc1⟩ := hopen K j U hv (hfit.back st') hU
      exact ⟨σ, mm, hm1, hre K j U hv hfit hc1, rfl⟩
    | unordered l =>
      obtain ⟨σ, ms, values, items', hmatch, hnodup, hms, hall, hperm, hsorted, rfl⟩ := hm
      have hlen := hcount' _ rfl
      obtain ⟨htot, h', st, hst, ht', hρ', hopen⟩ := container_step (x := c.xsd) (le := le) hP hterm hins hPi hρ hmatch (by rw [hlen]; exact hb)
      simp only [layout, TypedValue.untype] at hrun
      rw [intro_emit (by change PatsBelow (dins.length + _) _; rw [hlen]; exact hcl'.1)] at hrun
      have hfl : (Env.child (.root dins) (freshList s.fresh l.intro)).flat = scope dins l.intro s := rfl
      cases hd with
      | list hd =>
      have hall' : List.Forall₂ (fun v τ => IsMatch ds (σ ++ List.replicate l.item.intro none) (inGraph none l.item.dataset) τ ∧
          SubMeaning (Meaning (HyCtx.ofTerms c.reg c.xsd le ds) m) none l.item.value τ v) values ms := by
        refine List.Forall₂.flip (List.forall₂_iff_get.2 ⟨hall.length_eq, fun i h1 h2 => ⟨?_, hall.get h1 h2⟩⟩)
        exact (hms _).1 (List.get_mem ..)
      obtain ⟨τs, hτs, hτp⟩ := List.perm_comp_forall₂ hperm hall'
      obtain ⟨h'', st', hre⟩ := items_step hP hrec (env := .child (.root dins) (freshList s.fresh l.intro))
        (by rw [hfl, length_scope, hlen]; exact hcl'.2)
        ⟨fun t ht => hconst t (.inr (.inr (.inl ht))), hg _ (by simp [Layout.formats])⟩
        htot hτs.flip hd ht' (by rw [hfl]; exact hρ') (by rw [hfl]; exact hst) hrun
      refine again (st.trans st') fun K j U hv hfit hU => ?_
      obtain ⟨hm1, hc1⟩ := hopen K j U hv (hfit.back st') hU
      have hre := hre K j U hv hfit hc1
      refine ⟨σ, τs, items', items', hm1, hτp.nodup_iff.2 hnodup, fun τ => ⟨fun hτ => ?_, fun hτ => ?_⟩,
        hre.imp fun _ _ h => h.2, .refl _, by rw [hv.part.le]; exact hsorted, rfl⟩
      · obtain ⟨_, _, h, _⟩ := forall₂_left hre hτ
        exact h
      · exact hτp.mem_iff.2 ((hms τ).2 (isMatch_sub hv.part.ds hτ))
    | ordered l =>
      obtain ⟨σ, head, tail, items', hmatch, hhead, htail, hchain, rfl⟩ := hm
      have hlen := hcount' _ rfl
      obtain ⟨htot, h', st, hst, ht', hρ', hopen⟩ := container_step (x := c.xsd) (le := le) hP hterm hins hPi hρ hmatch (by rw [hlen]; exact hb)
      simp only [layout, TypedValue.untype] at hrun
      have hfl : (Env.child (.root dins) (freshList s.fresh l.intro)).flat = scope dins l.intro s := rfl
      rw [intro_emit (by change PatsBelow (dins.length + _) _; rw [hlen]; exact hcl'.1),
        readPattern_bind (by rw [hfl, length_scope, hlen]; exact hcl'.2.1)] at hrun
      cases hd with
      | list hd =>
      have hPh : P head := by
        cases hres : l.head with
        | res t => rw [hres] at hhead; cases hhead; exact hP.constants _ (hconst _ (.inr (.inl hres)))
        | var y => rw [hres] at hhead; exact (hst.get y _ hhead).2
      obtain ⟨h'', st', hre⟩ := nodes_step hP hrec (env := .child (.root dins) (freshList s.fresh l.intro))
        (by rw [hfl, length_scope, hlen]; exact hcl'.2.2.1)
        (by rw [hfl, length_scope, hlen]; exact hcl'.2.2.2)
        ⟨fun t ht => hconst t (.inr (.inr (.inr (.inr (.inl ht))))), hg _ (by simp [Layout.formats])⟩
        htot hchain hd hPh ht' (by rw [hfl]; exact hρ') (by rw [hfl]; exact hst)
        (hst.inst ht' hhead) (old_inst hρ' _) (hst.inst ht' htail) hrun
      refine again (st.trans st') fun K j U hv hfit hU => ?_
      obtain ⟨hm1, hc1⟩ := hopen K j U hv (hfit.back st') hU
      exact ⟨σ, head, tail, items', hm1, hhead, htail, hre K j U hv hfit hc1
        (hc1.inst hhead fun t ht => hv.const t (hconst t (.inr (.inl ht)))), rfl⟩
    | sized l =>
      obtain ⟨σ, items', hmatch, hall, rfl⟩ := hm
      have hlen := hcount' _ rfl
      obtain ⟨htot, h', st, hst, ht', hρ', hopen⟩ := container_step (x := c.xsd) (le := le) hP hterm hins hPi hρ hmatch (by rw [hlen]; exact hb)
      simp only [layout, TypedValue.untype] at hrun
      have hfl : (Env.child (.root dins) (freshList s.fresh l.intro)).flat = scope dins l.intro s := rfl
      rw [intro_emit (by change PatsBelow (dins.length + _) _; rw [hlen]; exact hcl'.1)] at hrun
      cases hd with
      | list hd =>
      obtain ⟨h'', st', hre⟩ := sized_step hP hrec (env := .child (.root dins) (freshList s.fresh l.intro)) htot
        (by rw [hfl, length_scope, hlen]; exact hcl'.2)
        (fun i hi => ⟨fun t ht => hconst t (.inr ⟨i, hi, .inr (.inl ht)⟩), hg _ (List.mem_map_of_mem hi)⟩)
        hall hd ht' (by rw [hfl]; exact hρ') (by rw [hfl]; exact hst) hrun
      refine again (st.trans st') fun K j U hv hfit hU => ?_
      obtain ⟨hm1, hc1⟩ := hopen K j U hv (hfit.back st') hU
      exact ⟨σ, items', hm1, hre K j U hv hfit hc1, rfl⟩
    | sum l =>
      obtain ⟨σ, i, y, w, hmatch, huniq, hy, hvar, _, rfl⟩ := hm
      have hlen := hcount' _ rfl
      obtain ⟨htot, h', st, hst, ht', hρ', hopen⟩ := container_step (x := c.xsd) (le := le) hP hterm hins hPi hρ hmatch (by rw [hlen]; exact hb)
      simp only [layout, TypedValue.untype] at hrun
      have hfl : (Env.child (.root dins) (freshList s.fresh l.intro)).flat = scope dins l.intro s := rfl
      rw [intro_emit (by change PatsBelow (dins.length + _) _; rw [hlen]; exact hcl'.1)] at hrun
      cases hd with
      | @variant _ _ _ l' hl' hd hdecl =>
      have : l' = l := by
        rw [hl] at hl'
        injection hl' with hl'
        injection hl' with hl'
        exact hl'.symm
      subst this
      obtain ⟨before, after, hsplit, hothers⟩ := split_variant hy
      have hmem : y ∈ l'.variants := List.mem_of_getElem? hy
      rw [hsplit] at hrun
      obtain ⟨h'', st', hre⟩ := variants_step hP hcl hrec (env := .child (.root dins) (freshList s.fresh l'.intro))
        (by rw [hfl, length_scope, hlen, ← hsplit]; exact hcl'.2)
        (by
          intro z hz
          obtain ⟨j, hj, hne⟩ := hothers z hz
          exact hdecl j z hj hne)
        ⟨fun t ht => hconst t (.inr ⟨y, hmem, .inr (.inl ht)⟩), hg _ (List.mem_map_of_mem hmem)⟩
        htot hvar hd ht' (by rw [hfl]; exact hρ') (by rw [hfl]; exact hst) hrun
      refine again (st.trans st') fun K j U hv hfit hU => ?_
      obtain ⟨hm1, hc1⟩ := hopen K j U hv (hfit.back st') hU
      have hre := hre K j U hv hfit hc1
      refine ⟨σ, i, y, w, hm1, fun z hz τ τ' hτ hτ' => huniq z hz τ τ' (isMatch_sub hv.part.ds hτ)
        (isMatch_sub hv.part.ds hτ'), hy, hre, fun i' z w' hz hw' => ?_, rfl⟩
      exact hv.sums (m + j) ref l' (by rw [hv.part.reg]; exact hl) σ ⟨ins, hcount0 _ rfl, hm1.1⟩ i' i z y w' w hz hy hw' hre

end Verif.Reproduce
