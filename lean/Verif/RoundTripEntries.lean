import Verif.RoundTripLoops

/-! # What the loops over record entries and list nodes write -/

set_option linter.unusedSectionVars false
set_option linter.unusedSimpArgs false

namespace Verif.RoundTrip

open Dehydrate

variable {K : Prop} {c : DeCtx} {F : DeState} {S : Term → Prop} {rec : Rec} {ids : Term → Value → List String}
  {M MI : (IRes → Prop) → Term → IRes → Value → Prop}

/-- What a call to a set layout achieves, whatever was written before about `r`. `K` is anything that follows from the
success of the call. -/
def SetSpec (K : Prop) (c : DeCtx) (F : DeState) (S : Term → Prop) (rec : Rec) (ids : Term → Value → List String)
    (MI : (IRes → Prop) → Term → IRes → Value → Prop) : Prop :=
  ∀ ref l p r v s s', S ref → c.reg ref = some (.unordered l) → l.IsSet p → Recoverable c.reg ref v → v.Sorted →
    rec v none ref [r] s = (.ok (), s') → Old r s.fresh → Bounded s → NoTerms s → Fr F s.fresh s' →
    K ∧ ∃ ns xs vs, v = .list vs ∧ Nodes F s.fresh s'.fresh ns ∧ idsOf ns = ids ref v ∧
      (∀ q ∈ s'.out, q ∈ s.out ∨ q.s = r ∨ In ns q.s) ∧
      List.Forall₂ (MI (In ns) l.item.value.layout) xs vs ∧ s.fresh ≤ s'.fresh ∧ Bounded s' ∧ NoTerms s' ∧
      (∀ x ∈ xs, lk r p x ∈ s'.out) ∧ (∀ q ∈ s'.out, q.s = r → q ∈ s.out ∨ ∃ x ∈ xs, q = lk r p x) ∧
      ∀ t, (r, t) ∈ s'.terms → (r, t) ∈ s.terms

/-- What a call to an identifier layout achieves. -/
def IdSpec (K : Prop) (c : DeCtx) (S : Term → Prop) (rec : Rec) (ids : Term → Value → List String) : Prop :=
  ∀ ref l r v s s', S ref → c.reg ref = some (.id l) → rec v none ref [r] s = (.ok (), s') →
    K ∧ ∃ t, v = .literal (.textString t) ∧ s'.out = s.out ∧ s'.fresh = s.fresh ∧
      (∀ e, e ∈ s'.terms ↔ e ∈ s.terms ∨ e = (r, .iri t)) ∧ ids ref v = []

/-- The field `f` of the record `r` has the value `v`, represented by the children `xs`. -/
structure EntryRep (K : Prop) (c : DeCtx) (F : DeState) (M MI : Term → IRes → Value → Prop) (r : IRes) (f : Field Term) (v : Value)
    (xs : List IRes) : Prop where
  link : ∀ p, f.IsLink p → ∃ x, xs = [x] ∧ M f.value.layout x v ∧ lk r p x ∈ F.out
  set : ∀ l p, f.OnSelf → c.reg f.value.layout = some (.unordered l) → l.IsSet p →
    K ∧ ∃ vs, v = .list vs ∧ List.Forall₂ (MI l.item.value.layout) xs vs ∧ ∀ x ∈ xs, lk r p x ∈ F.out
  id : ∀ l, f.OnSelf → c.reg f.value.layout = some (.id l) →
    K ∧ ∃ t, v = .literal (.textString t) ∧ (r, .iri t) ∈ F.terms

theorem EntryRep.mono {M' MI' : Term → IRes → Value → Prop} {M MI : Term → IRes → Value → Prop}
    (hM : ∀ ref r v, M ref r v → M' ref r v) (hMI : ∀ ref r v, MI ref r v → MI' ref r v) {r f v xs}
    (h : EntryRep K c F M MI r f v xs) : EntryRep K c F M' MI' r f v xs where
  link p hp := by obtain ⟨x, h1, h2, h3⟩ := h.link p hp; exact ⟨x, h1, hM _ _ _ h2, h3⟩
  set l p h1 h2 h3 := by obtain ⟨hK, vs, h4, h5, h6⟩ := h.set l p h1 h2 h3; exact ⟨hK, vs, h4, h5.imp fun _ _ => hMI _ _ _, h6⟩
  id := h.id

theorem Field.IsLink.not_onSelf {f : Field Term} {p : Term} (h : f.IsLink p) : ¬ f.OnSelf := by
  intro h'
  have := h.1.symm.trans h'.1
  omega

theorem Field.IsLink.unique {f : Field Term} {p p' : Term} (h : f.IsLink p) (h' : f.IsLink p') : p = p' := by
  have := h.2.1.symm.trans h'.2.1
  simpa [linkPat] using this

theorem IsSet.unique {l : UnorderedLayout Term} {p p' : Term} (h : l.IsSet p) (h' : l.IsSet p') : p = p' := by
  have := h.2.2.2.2.1.symm.trans h'.2.2.2.2.1
  simpa [linkPat] using this

theorem field_closed {f : Field Term} {reg : Registry Term} (h : (∃ p, f.Uses reg p) ∨ f.IsId reg) :
    PatsBelow (1 + f.intro) f.dataset ∧ f.value.Below (1 + f.intro) := by
  have hself : f.OnSelf → PatsBelow (1 + f.intro) f.dataset ∧ f.value.Below (1 + f.intro) := by
    rintro ⟨h1, h2, h3, h4⟩
    rw [h1, h2]
    refine ⟨by simp [PatsBelow, patsVars], ?_, ?_⟩
    · rw [h3]; simp [Pattern.Below, Pattern.vars]
    · rw [h4]; simp
  rcases h with ⟨p, h | ⟨h, -⟩⟩ | ⟨h, -⟩
  · obtain ⟨h1, h2, h3, h4⟩ := h
    rw [h1, h2]
    refine ⟨patsBelow_link 2 0 1 p (by omega) (by omega), ?_, ?_⟩
    · rw [h3]; simp [Pattern.Below, Pattern.vars]
    · rw [h4]; simp
  · exact hself h
  · exact hself h

theorem call_self {r : IRes} {fmt : ValueFormat Term} (h : fmt.IsVar 0) (s : DeState) (v : Value) :
    call rec none fmt (scope [r] 0 s) v = rec v none fmt.layout [r] := by
  unfold call
  rw [h.1, h.2]
  rfl

/-- The identifiers of the children of a record. -/
def entryIds (ids : Term → Value → List String) (fields : List (Value × Field Term)) (e : Value × Value) : List String :=
  match lookup e.1 fields with
  | some f => ids f.value.layout e.2
  | none => []

/-- The entries of a record. -/
theorem entries_run (hR : RunSpec c F S rec ids M) (hset : SetSpec K c F S rec ids MI) (hid : IdSpec K c S rec ids)
    (hM : ∀ N N' ref r v, (∀ r, N r → N' r) → M N ref r v → M N' ref r v)
    (hMI : ∀ N N' ref r v, (∀ r, N r → N' r) → MI N ref r v → MI N' ref r v)
    (hok : RecOk rec) {r : IRes} {env : Env IRes} (henv : IsEnv env r) {fields : List (Value × Field Term)}
    (hf : ∀ e ∈ fields, (∃ p, e.2.Uses c.reg p) ∨ e.2.IsId c.reg) (hS : ∀ e ∈ fields, S e.2.value.layout)
    (m : List (Value × Value)) (hk : (m.map Prod.fst).Nodup) (s s' : DeState)
    (hrun : entries rec none env fields m s = (.ok (), s')) (hr : Old r s.fresh) (hb : Bounded s) (hk' : NoTerms s)
    (hne : ∀ k v f, (k, v) ∈ m → (k, f) ∈ fields → Recoverable c.reg f.value.layout v)
    (hso : ∀ e ∈ m, e.2.Sorted) (hfr : Fr F s.fresh s') :
    ∃ ns, ∃ g : Value → List IRes, Nodes F s.fresh s'.fresh ns ∧
      idsOf ns = m.flatMap (entryIds ids fields) ∧
      (∀ q ∈ s'.out, q ∈ s.out ∨ q.s = r ∨ In ns q.s) ∧
      (∀ k v f, (k, v) ∈ m → lookup k fields = some f → EntryRep K c F (M (In ns)) (MI (In ns)) r f v (g k)) ∧
      s.fresh ≤ s'.fresh ∧ NoTerms s' ∧
      (∀ q ∈ s'.out, q.s = r → q ∈ s.out ∨ ∃ k v f p x, (k, v) ∈ m ∧ lookup k fields = some f ∧ f.Uses c.reg p ∧
        x ∈ g k ∧ q = lk r p x) ∧
      (∀ t, (r, t) ∈ s'.terms → (r, t) ∈ s.terms ∨ ∃ k v f i, (k, v) ∈ m ∧ lookup k fields = some f ∧ f.IsId c.reg ∧
        v = .literal (.textString i) ∧ t = .iri i) ∧
      ∀ k v, (k, v) ∈ m → ∃ f, lookup k fields = some f := by
  induction m generalizing s with
  | nil =>
    simp only [entries, DeM.pure, Prod.mk.injEq, true_and] at hrun
    subst hrun
    exact ⟨[], fun _ => [], .nil _, rfl, fun q h => .inl h, by simp, Nat.le_refl _, hk', fun q h _ => .inl h,
      fun t h => .inl h, by simp⟩
  | cons e m ih =>
    obtain ⟨key, v⟩ := e
    rw [List.map_cons, List.nodup_cons] at hk
    cases hl : lookup key fields with
    | none => unfold entries at hrun; simp [hl, DeM.fail] at hrun
    | some f =>
      have hmem := mem_of_lookup hl
      have hcl := field_closed (hf _ hmem)
      rw [entries_cons hl (by rw [henv]; exact hcl.1) (by rw [henv]; exact hcl.2), DeM.bind_eq_ok] at hrun
      obtain ⟨a, s2, hc, hrun⟩ := hrun
      have hfoot : Footprint (· = r) s2.fresh s2 s' := by
        have := foot_entries (A := (· = r)) hok.foot none fields m (Nat.le_refl s2.fresh) (henv.envIn _ _)
        rwa [hrun] at this
      have hext : Extends s2 s' := by
        have := pres_entries extends_rel (fun v g ref ins s => hok.ext v g ref ins s) none env fields m s2
        rwa [hrun] at this
      -- what this entry achieves
      have hstep : ∃ ns xs, Nodes F s.fresh s2.fresh ns ∧ idsOf ns = ids f.value.layout v ∧
          (∀ q ∈ s2.out, q ∈ s.out ∨ q.s = r ∨ In ns q.s) ∧ EntryRep K c F (M (In ns)) (MI (In ns)) r f v xs ∧
          s.fresh ≤ s2.fresh ∧ (Bounded s2 ∧ NoTerms s2) ∧
          (∀ q ∈ s2.out, q.s = r → q ∈ s.out ∨ ∃ p x, f.Uses c.reg p ∧ x ∈ xs ∧ q = lk r p x) ∧
          (∀ t, (r, t) ∈ s2.terms → (r, t) ∈ s.terms ∨ ∃ i, f.IsId c.reg ∧ v = .literal (.textString i) ∧ t = .iri i) := by
        have hne' := hne key v f (by simp) hmem
        have hso' := hso (key, v) (by simp)
        have hS' := hS _ hmem
        rcases hf _ hmem with ⟨p, hu | ⟨hu, l, hreg, hsetl⟩⟩ | ⟨hu, l, hreg⟩
        · rw [henv, hu.1, hu.2.1, call_link hu.2.2] at hc
          obtain ⟨ns, h1, h2, h3, h4, h5, h5', h6, h7, h8, h9⟩ := link_step (p := p) hR hok hc hr hb hk' hS' hne' hso' hfr
            hfoot hext
          refine ⟨ns, [.anon s.fresh], h1, h2, h3, ?_, h6, ⟨h5, h5'⟩, ?_, fun t ht => .inl (h9 t ht)⟩
          · refine ⟨fun p' hp' => ?_, fun l p' h => absurd h (Field.IsLink.not_onSelf hu),
              fun l h => absurd h (Field.IsLink.not_onSelf hu)⟩
            rw [Field.IsLink.unique hp' hu]
            exact ⟨_, rfl, h4, hfr.quads _ (hext.quads _ h7)⟩
          · intro q hq e
            rcases h8 q hq e with h | h
            · exact .inl h
            · exact .inr ⟨p, .anon s.fresh, .inl hu, by simp, h⟩
        · rw [henv, hu.1, hu.2.1, call_self hu.2.2] at hc
          change rec v none f.value.layout [r] s = _ at hc
          obtain ⟨hK, ns, xs, vs, h0, h1, h2, h3, h4, h5, h6, h6', h7, h8, h9⟩ := hset _ l p r v s s2 hS' hreg hsetl hne'
            hso' hc hr hb hk' (hfr.shrink hfoot hext (by rintro i rfl; exact hr.2 i rfl))
          refine ⟨ns, xs, h1, h2, h3, ?_, h5, ⟨h6, h6'⟩, ?_, fun t ht => .inl (h9 t ht)⟩
          · refine ⟨fun p' hp' => absurd hu (Field.IsLink.not_onSelf hp'), fun l' p' _ hreg' hset' => ?_,
              fun l' _ hreg' => ?_⟩
            · rw [hreg] at hreg'
              simp only [Option.some.injEq, Layout.unordered.injEq] at hreg'
              subst hreg'
              rw [IsSet.unique hset' hsetl]
              exact ⟨hK, vs, h0, h4, fun x hx => hfr.quads _ (hext.quads _ (h7 x hx))⟩
            · rw [hreg] at hreg'; simp at hreg'
          · intro q hq e
            rcases h8 q hq e with h | ⟨x, hx, h⟩
            · exact .inl h
            · exact .inr ⟨p, x, .inr ⟨hu, l, hreg, hsetl⟩, hx, h⟩
        · rw [henv, hu.1, hu.2.1, call_self hu.2.2] at hc
          change rec v none f.value.layout [r] s = _ at hc
          obtain ⟨hK, t, h0, h1, h2, h3, h4⟩ := hid _ l r v s s2 hS' hreg hc
          have hb2 : Bounded s2 := by
            refine ⟨?_, ?_⟩
            · rw [h1, h2]; exact hb.quads
            · intro e he i hi
              rw [h2]
              rcases (h3 e).1 he with h | rfl
              · exact hb.terms e h i hi
              · exact hr.2 i hi
          have hk2 : NoTerms s2 := by
            intro e he t'
            rcases (h3 e).1 he with h | rfl
            · exact hk' e h t'
            · exact hr.1 t'
          refine ⟨[], [], .nil' h2, h4.symm, ?_, ?_, Nat.le_of_eq h2.symm, ⟨hb2, hk2⟩, ?_, ?_⟩
          · intro q hq; rw [h1] at hq; exact .inl hq
          · refine ⟨fun p' hp' => absurd hu (Field.IsLink.not_onSelf hp'), fun l' p' _ hreg' => ?_, fun l' _ hreg' => ?_⟩
            · rw [hreg] at hreg'; simp at hreg'
            · exact ⟨hK, t, h0, hfr.terms _ (hext.terms _ ((h3 _).2 (.inr rfl)))⟩
          · intro q hq _; rw [h1] at hq; exact .inl hq
          · intro t' ht'
            rcases (h3 _).1 ht' with h | h
            · exact .inl h
            · simp only [Prod.mk.injEq, true_and] at h
              exact .inr ⟨t, ⟨hu, l, hreg⟩, h0, h⟩
      obtain ⟨ns, xs, h1, h2, h3, h4, h5, h6, h7, h8⟩ := hstep
      obtain ⟨ns', g, g1, g2, g3, g4, g5, g5', g6, g7, g8⟩ := ih hk.2 s2 hrun (hr.mono h5) h6.1 h6.2
        (fun k v f hm => hne k v f (List.mem_cons_of_mem _ hm)) (fun e he => hso e (List.mem_cons_of_mem _ he))
        (hfr.mono h5)
      have hkey : ∀ k v', (k, v') ∈ m → k ≠ key := by
        rintro k v' hm rfl
        exact hk.1 (List.mem_map.2 ⟨_, hm, rfl⟩)
      have hmono : ∀ a, In ns a → In (ns ++ ns') a := fun _ h => in_append.2 (.inl h)
      have hmono' : ∀ a, In ns' a → In (ns ++ ns') a := fun _ h => in_append.2 (.inr h)
      refine ⟨ns ++ ns', fun k => if k = key then xs else g k, h1.append g1 h5 g5, ?_, ?_, ?_, Nat.le_trans h5 g5, g5', ?_, ?_,
        ?_⟩
      · rw [idsOf_append, h2, g2, List.flatMap_cons]
        congr 1
        simp only [entryIds, hl]
      · intro q hq
        rcases g3 q hq with h | h | h
        · rcases h3 q h with h | h | h
          · exact .inl h
          · exact .inr (.inl h)
          · exact .inr (.inr (hmono _ h))
        · exact .inr (.inl h)
        · exact .inr (.inr (hmono' _ h))
      · intro k v' f' hm hl'
        rcases List.mem_cons.1 hm with hm | hm
        · simp only [Prod.mk.injEq] at hm
          obtain ⟨rfl, rfl⟩ := hm
          rw [hl] at hl'
          simp only [Option.some.injEq] at hl'
          subst hl'
          simp only [if_true]
          exact h4.mono (fun _ _ _ => hM _ _ _ _ _ hmono) (fun _ _ _ => hMI _ _ _ _ _ hmono)
        · simp only [if_neg (hkey _ _ hm)]
          exact (g4 k v' f' hm hl').mono (fun _ _ _ => hM _ _ _ _ _ hmono') (fun _ _ _ => hMI _ _ _ _ _ hmono')
      · intro q hq e
        rcases g6 q hq e with h | ⟨k, v', f', p, x, hm, hl', hu, hx, rfl⟩
        · rcases h7 q h e with h | ⟨p, x, hu, hx, rfl⟩
          · exact .inl h
          · exact .inr ⟨key, v, f, p, x, by simp, hl, hu, by simpa using hx, rfl⟩
        · exact .inr ⟨k, v', f', p, x, by simp [hm], hl', hu, by simpa [hkey _ _ hm] using hx, rfl⟩
      · intro t ht
        rcases g7 t ht with h | ⟨k, v', f', i, hm, hl', hu, hv, rfl⟩
        · rcases h8 t h with h | ⟨i, hu, hv, rfl⟩
          · exact .inl h
          · exact .inr ⟨key, v, f, i, by simp, hl, hu, hv, rfl⟩
        · exact .inr ⟨k, v', f', i, by simp [hm], hl', hu, hv, rfl⟩
      · intro k v' hm
        rcases List.mem_cons.1 hm with hm | hm
        · simp only [Prod.mk.injEq] at hm
          exact ⟨f, by rw [hm.1]; exact hl⟩
        · exact g8 k v' hm

end Verif.RoundTrip
