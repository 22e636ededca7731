import Verif.RoundTripBack
import Verif.DehydrateNaming
import Verif.DehydrateGraph

/-!
# The round trip

`round_trip`: hydrating what dehydration returned, from the subject it returned, gives back the same tree.
-/

set_option linter.unusedSectionVars false
set_option linter.unusedSimpArgs false

namespace Verif.Dehydrate

/-! ## Only the layouts referred to matter -/

theorem layout_congr (c : DeCtx) {rec rec' : Rec} (v : Value) (g : Option IRes) (ref : Term) (inputs : List IRes)
    (l : Layout Term) (h : ∀ f ∈ l.formats, ∀ v g ins, rec v g f.layout ins = rec' v g f.layout ins) :
    layout c rec v g ref inputs l = layout c rec' v g ref inputs l := by
  have h1 : ∀ f ∈ l.formats, ∀ env v, subValue rec g f env v = subValue rec' g f env v := by
    intro f hf env v
    simp only [subValue, h f hf]
  cases l with
  | sum l =>
    simp only [layout]
    congr 1
    funext env
    congr 1
    funext _
    have : ∀ vs : List (Variant Term), (∀ x ∈ vs, x ∈ l.variants) → ∀ sel,
        variants rec g env v vs sel = variants rec' g env v vs sel := by
      intro vs
      induction vs with
      | nil => intro _ sel; cases sel <;> rfl
      | cons x vs ih =>
        intro hx sel
        rw [List.forall_mem_cons] at hx
        simp only [variants, ih hx.2, h1 x.value (by simpa [Layout.formats] using ⟨x, hx.1, rfl⟩)]
    exact this _ (fun _ hx => hx) _
  | product l =>
    simp only [layout]
    split
    · congr 1
      funext env
      congr 1
      funext _
      suffices ∀ m, entries rec g env l.fields m = entries rec' g env l.fields m by rw [this]
      intro m
      induction m with
      | nil => rfl
      | cons e m ih =>
        obtain ⟨k, v⟩ := e
        unfold entries
        cases hl : lookup k l.fields with
        | none => rfl
        | some f =>
          simp only [ih, h1 f.value (by
            simp only [Layout.formats, List.mem_map]
            exact ⟨_, mem_of_lookup hl, rfl⟩)]
    · rfl
  | unordered l =>
    simp only [layout]
    split
    · congr 1
      funext env
      congr 1
      funext _
      suffices ∀ vs, items rec g env l.item vs = items rec' g env l.item vs from this _
      intro vs
      induction vs with
      | nil => rfl
      | cons e m ih => simp only [items, ih, h1 l.item.value (by simp [Layout.formats])]
    · rfl
  | ordered l =>
    simp only [layout]
    split
    · congr 1
      funext env
      congr 1
      funext _
      congr 1
      funext head
      suffices ∀ vs head, nodes rec g env l.node l.tail head vs = nodes rec' g env l.node l.tail head vs from this _ _
      intro vs
      induction vs with
      | nil => intro _; rfl
      | cons e m ih => intro head; simp only [nodes, ih, h1 l.node.value (by simp [Layout.formats])]
    · rfl
  | sized l =>
    simp only [layout]
    split
    · congr 1
      funext env
      congr 1
      funext _
      have : ∀ (vs : List Value) (is : List (ItemLayout Term)), (∀ x ∈ is, x ∈ l.items) →
          sizedItems rec g env vs is = sizedItems rec' g env vs is := by
        intro vs
        induction vs with
        | nil => intro is _; cases is <;> rfl
        | cons e m ih =>
          intro is his
          cases is with
          | nil => rfl
          | cons i is =>
            rw [List.forall_mem_cons] at his
            simp only [sizedItems, ih is his.2, h1 i.value (by
              simp only [Layout.formats, List.mem_map]
              exact ⟨_, his.1, rfl⟩)]
      exact this _ _ fun _ hx => hx
    · rfl
  | _ => rfl

/-- Every emitted quad is an instance of a pattern of a layout among those that can be reached. -/
theorem from_reached (c : DeCtx) (S : Term → Prop)
    (hS : ∀ ref l f, S ref → c.reg ref = some l → f ∈ l.formats → S f.layout) (n : Nat) (v : Value)
    (graph : Option IRes) (ref : Term) (inputs : List IRes) (hr : S ref) :
    (dehydrateWith c n v graph ref inputs).Pres
      (From fun p => ∃ ref l, S ref ∧ c.reg ref = some l ∧ p ∈ l.patterns) := by
  classical
  induction n generalizing v graph ref inputs with
  | zero => exact from_id fun _ => rfl
  | succ n ih =>
    unfold dehydrateWith
    split
    · exact from_fail _
    · rename_i l hl
      split
      · exact from_fail _
      · rw [layout_congr c (rec' := fun v g ref ins => if S ref then dehydrateWith c n v g ref ins else .fail .incompatibleLayout)
          v graph ref inputs l fun f hf v g ins => by simp only [if_pos (hS ref l f hr hl hf)]]
        refine from_layout c ?_ _ _ _ _ _ fun p hp => ⟨_, l, hr, hl, hp⟩
        intro v g ref ins
        by_cases h : S ref
        · simp only [if_pos h]
          exact ih v g ref ins h
        · simp only [if_neg h]
          exact from_fail _

end Verif.Dehydrate

namespace Verif.RoundTrip

open Dehydrate

variable {c : DeCtx} {F : DeState} {S : Term → Prop}

theorem tree_patterns {reg : Registry Term} {xsd : Xsd} {l : Layout Term} (h : l.Tree reg xsd) :
    ∀ p ∈ l.patterns, (∃ t, p.p = .res t) ∧ p.g = none := by
  have hconst : ∀ {ds : List (QuadPat Term)}, ConstPats ds → ∀ p ∈ ds, (∃ t, p.p = .res t) ∧ p.g = none := by
    intro ds hd p hp
    obtain ⟨t, o, rfl⟩ := hd p hp
    exact ⟨⟨t, rfl⟩, rfl⟩
  have hlink : ∀ a b t, ∀ p ∈ [linkPat a b t], (∃ t, p.p = .res t) ∧ p.g = none := by
    intro a b t p hp
    simp only [List.mem_singleton] at hp
    subst hp
    exact ⟨⟨t, rfl⟩, rfl⟩
  cases l with
  | never => exact h.elim
  | always => exact h.elim
  | sum l =>
    simp only [Layout.patterns, List.forall_mem_append, List.mem_flatMap]
    refine ⟨hconst h.const, ?_⟩
    rintro p ⟨x, hx, hp⟩
    exact hconst (h.variants x hx).2.1 p hp
  | byteString l => exact h.elim
  | unit l => exact hconst h.2
  | boolean l => simp [Layout.patterns, h.1.2.1]
  | number l => simp [Layout.patterns, h.1.2.1]
  | textString l => simp [Layout.patterns, h.1.2.1]
  | id l => simp [Layout.patterns, h.2.1]
  | product l =>
    simp only [Layout.patterns, List.forall_mem_append, List.mem_flatMap]
    refine ⟨hconst h.const, ?_⟩
    rintro p ⟨e, he, hp⟩
    rcases h.fields e he with ⟨t, h1 | ⟨h1, -⟩⟩ | ⟨h1, -⟩
    · rw [h1.2.1] at hp
      exact hlink _ _ _ p hp
    · rw [h1.2.1] at hp; simp at hp
    · rw [h1.2.1] at hp; simp at hp
  | unordered l =>
    obtain ⟨t, h1, h2, h3, h4⟩ := h
    simp only [Layout.patterns, h3, h4.2.1, List.nil_append]
    exact hlink _ _ _
  | ordered l =>
    obtain ⟨t, t', tail, h1, h2, h3, h4, h5, h6, h7, h8, h9⟩ := h
    simp only [Layout.patterns, h3, List.nil_append]
    intro p hp
    rcases (h8 p).1 hp with rfl | rfl
    · exact ⟨⟨_, rfl⟩, rfl⟩
    · exact ⟨⟨_, rfl⟩, rfl⟩
  | sized l =>
    obtain ⟨h1, h2, h3, h4, h5⟩ := h
    simp only [Layout.patterns, List.forall_mem_append, List.mem_flatMap]
    refine ⟨hconst h3, ?_⟩
    rintro p ⟨i, hi, hp⟩
    obtain ⟨t, ht, -⟩ := h4 i hi
    rw [ht.2.1] at hp
    exact hlink _ _ _ p hp

theorem tree_inputCount {reg : Registry Term} {xsd : Xsd} {l : Layout Term} (h : l.Tree reg xsd) : l.inputCount = some 1 := by
  cases l with
  | never => exact h.elim
  | always => exact h.elim
  | sum l => exact congrArg some h.input
  | byteString l => exact h.elim
  | product l => exact congrArg some h.input
  | unordered l => obtain ⟨t, h1, -⟩ := h; exact congrArg some h1
  | ordered l => obtain ⟨t, t', tail, h1, -⟩ := h; exact congrArg some h1
  | sized l => exact congrArg some h.1
  | _ => rfl

theorem nodup_filterMap {ns : List (IRes × Option String)} (h : (ns.filterMap Prod.snd).Nodup) {a b : IRes} {i : String}
    (ha : (a, some i) ∈ ns) (hb : (b, some i) ∈ ns) : a = b := by
  induction ns with
  | nil => simp at ha
  | cons e ns ih =>
    obtain ⟨r, o⟩ := e
    have hmem : ∀ a, (a, some i) ∈ ns → i ∈ ns.filterMap Prod.snd := fun a h => List.mem_filterMap.2 ⟨_, h, rfl⟩
    simp only [List.mem_cons, Prod.mk.injEq] at ha hb
    cases o with
    | none =>
      simp only [reduceCtorEq, and_false, false_or] at ha hb
      exact ih h ha hb
    | some j =>
      simp only [List.filterMap_cons, List.nodup_cons] at h
      rcases ha with ⟨rfl, e⟩ | ha <;> rcases hb with ⟨rfl, e'⟩ | hb
      · rfl
      · simp only [Option.some.injEq] at e; subst e; exact absurd (hmem _ hb) h.1
      · simp only [Option.some.injEq] at e'; subst e'; exact absurd (hmem _ ha) h.1
      · exact ih h.2 ha hb

/-- The nodes of the run, with their identifiers. -/
structure AllNodes (F : DeState) (ns : List (IRes × Option String)) : Prop where
  range : ∀ e ∈ ns, e.1 = .input 0 ∨ ∃ i, e.1 = .anon i
  named : ∀ a i, (a, some i) ∈ ns → (a, .iri i) ∈ F.terms
  unnamed : ∀ a, (a, none) ∈ ns → ∀ t, (a, t) ∉ F.terms

theorem AllNodes.of {own ns : List (IRes × Option String)} {lo hi : Nat} (ho : Own F (.input 0) own)
    (h : Nodes F lo hi ns) : AllNodes F (own ++ ns) := by
  have h' : AllNodes F ns := ⟨fun e he => .inr ((h.range e he).imp fun _ h => h.1), h.named, h.unnamed⟩
  rcases ho.node with rfl | ⟨o, rfl, h3, h4⟩
  · exact h'
  · constructor
    · intro e he
      simp only [List.cons_append, List.nil_append, List.mem_cons] at he
      rcases he with rfl | he
      · exact .inl rfl
      · exact h'.range e he
    · intro a i he
      simp only [List.cons_append, List.nil_append, List.mem_cons, Prod.mk.injEq] at he
      rcases he with ⟨rfl, rfl⟩ | he
      · exact h3 i rfl
      · exact h'.named a i he
    · intro a he
      simp only [List.cons_append, List.nil_append, List.mem_cons, Prod.mk.injEq] at he
      rcases he with ⟨rfl, rfl⟩ | he
      · exact h4 rfl
      · exact h'.unnamed a he

/-- Unnamed nodes get blank nodes. -/
theorem blank_of {o : DeOptions} {Occ : IRes → Prop} {f : IRes → Term} (hb : BlankNames o) (hn : IsNaming o F Occ f) {a : IRes}
    (ha : a = .input 0 ∨ ∃ i, a = .anon i) (ho : Occ a) (ht : ∀ t, (a, t) ∉ F.terms) : ∃ b, f a = .blank b := by
  rcases ha with rfl | ⟨i, rfl⟩
  · rw [hn.input 0 ho ht]
    exact hb.input
  · obtain ⟨pos, h1, -⟩ := hn.generated
    rw [h1 i ho ht]
    exact hb.generator _

theorem names_inj {o : DeOptions} {Occ : IRes → Prop} {f : IRes → Term} (hb : BlankNames o) (hn : IsNaming o F Occ f)
    {ns : List (IRes × Option String)} (h : AllNodes F ns) (hd : (ns.filterMap Prod.snd).Nodup) {a b : IRes} (ha : In ns a)
    (hb' : In ns b) (hoa : Occ a) (hob : Occ b) (e : f a = f b) : a = b := by
  obtain ⟨⟨a', oa⟩, ha, rfl⟩ := List.mem_map.1 ha
  obtain ⟨⟨b', ob⟩, hb', rfl⟩ := List.mem_map.1 hb'
  simp only at *
  cases oa with
  | some i =>
    rw [hn.assigned _ _ (h.named _ _ ha)] at e
    cases ob with
    | some j =>
      rw [hn.assigned _ _ (h.named _ _ hb')] at e
      simp only [Term.iri.injEq] at e
      subst e
      exact nodup_filterMap hd ha hb'
    | none =>
      obtain ⟨x, hx⟩ := blank_of hb hn (h.range _ hb') hob (h.unnamed _ hb')
      rw [hx] at e; simp at e
  | none =>
    have hta := h.unnamed _ ha
    cases ob with
    | some j =>
      rw [hn.assigned _ _ (h.named _ _ hb')] at e
      obtain ⟨x, hx⟩ := blank_of hb hn (h.range _ ha) hoa hta
      rw [hx] at e; simp at e
    | none =>
      have htb := h.unnamed _ hb'
      obtain ⟨pos, h1, h2⟩ := hn.generated
      rcases h.range _ ha with ra | ⟨i, ra⟩ <;> rcases h.range _ hb' with rb | ⟨j, rb⟩ <;> simp only at ra rb <;> subst ra rb
      · rfl
      · rw [hn.input 0 hoa hta, h1 j hob htb] at e
        exact absurd e.symm (hb.input_ne _)
      · rw [hn.input 0 hob htb, h1 i hoa hta] at e
        exact absurd e (hb.input_ne _)
      · rw [h1 i hoa hta, h1 j hob htb] at e
        rw [h2 i j hoa hta hob htb (hb.injective _ _ e)]

/-- What was written is read back from any dataset that says the same of its nodes; the subjects of what was written are its
nodes. -/
theorem round_trip_stored (c : DeCtx) (le : TypedValue Term → TypedValue Term → Bool) (o : DeOptions) (hx : XsdLaws c.xsd)
    (hsort : c.reg.Sorted) (hb : BlankNames o) (hord : ∀ l, (o.order l).Perm l) (ref : Term)
    (htree : TreeLayouts c.reg c.xsd ref) (n : Nat) (v : Value) (hv : v.Sorted) (hne : Recoverable c.reg ref v)
    (hid : (nodeIds c.reg n ref v).Nodup) (D : List (Quad Term)) (subjects : List Term)
    (hrun : dehydrate c n v ref o = .ok (D, subjects)) :
    (∀ q ∈ D, StandsForNode o (nodeIds c.reg n ref v) D subjects q.s) ∧
    ∀ E : List (Quad Term), E.Nodup → StoredIn o (nodeIds c.reg n ref v) D subjects E →
      ∃ w N, (∀ m, N ≤ m → Hydrate.hydrate (HyCtx.ofTerms c.reg c.xsd le E) m none ref subjects = .ok w) ∧
        SameTree c.reg ref v w.untype := by
  obtain ⟨l, hl, hlt⟩ := htree ref (.refl ref)
  have hT : TreeSet c (Reaches c.reg ref) := ⟨htree, fun ref' l f h1 h2 h3 => .step h1 h2 h3⟩
  unfold dehydrate at hrun
  rw [hl] at hrun
  simp only [tree_inputCount hlt, Option.getD_some] at hrun
  rcases hd : dehydrateWith c n v none ref ((List.range 1).map .input) ⟨[], [], 0⟩ with ⟨a | e | _ | _, s⟩ <;> rw [hd] at hrun <;>
    simp only [reduceCtorEq] at hrun
  by_cases hamb : ambiguous s.terms = true
  · rw [if_pos hamb] at hrun; simp at hrun
  rw [if_neg hamb] at hrun
  rw [ambiguous_iff] at hamb
  rcases h1 : mapQuads o (o.order s.out) (initialMap s.terms, 0) with ⟨qs, st⟩
  rcases h2 : mapInputs o (List.range 1) st with ⟨values, st'⟩
  rw [h1] at hrun
  simp only [h2, Out.ok.injEq, Prod.mk.injEq] at hrun
  obtain ⟨rfl, rfl⟩ := hrun
  obtain ⟨f, hf, hqs, hvals⟩ := naming_spec o s hamb _ _ h1 h2
  have hrun' : dehydrateWith c n v none ref [.input 0] ⟨[], [], 0⟩ = (.ok (), s) := hd
  obtain ⟨own, ns, h3, h4, h5, h6, h7, -⟩ := rep_run (F := s) hT hsort n ref (.input 0) v ⟨[], [], 0⟩ s (fun _ _ => False)
    (.refl ref) hne hv hrun' ⟨by simp, by simp⟩ ⟨by simp, by simp⟩ (by simp [NoTerms]) (by simp) (by simp) (by simp)
    ⟨fun _ h => h, fun _ h => h, fun _ h _ _ _ _ => h, fun _ h _ _ _ _ => h⟩ ⟨fun _ h _ => .inl h, fun _ h => h⟩
  have hall := AllNodes.of h3 h4
  rw [← h5] at hid
  rw [← h5]
  have hfrom := from_reached c (Reaches c.reg ref) hT.step n v none ref [.input 0] (.refl ref) ⟨[], [], 0⟩
  rw [hrun'] at hfrom
  have hmem : ∀ q', q' ∈ toSet qs ↔ ∃ q ∈ s.out, q' = q.map f := by
    intro q'
    rw [toSet, List.mem_dedup, hqs, List.mem_map]
    simp only [(hord s.out).mem_iff, eq_comm]
  have hsubj : ∀ q ∈ s.out, In (own ++ ns) q.s := by
    intro q hq
    rcases h6 q hq with h | h
    · simp at h
    · exact h
  have hform : ∀ q ∈ s.out, (∃ p, q.p = .term p) ∧ q.g = none := by
    intro q hq
    rcases hfrom q hq with h | ⟨p, ρ, ⟨ref', l', hr', hl', hp⟩, hi⟩
    · simp at h
    · obtain ⟨l2, hl2, ht2⟩ := htree ref' hr'
      rw [hl'] at hl2
      cases hl2
      obtain ⟨⟨t, e1⟩, e2⟩ := tree_patterns ht2 p hp
      obtain ⟨-, i1, -, i2⟩ := hi
      rw [e1] at i1
      rw [e2] at i2
      refine ⟨⟨t, i1⟩, ?_⟩
      cases hg : q.g with
      | none => rfl
      | some g => rw [hg] at i2; exact i2.elim
  have hocc : ∀ q ∈ s.out, Occurs (o.order s.out) 1 q.s ∧ Occurs (o.order s.out) 1 q.o := by
    intro q hq
    have := (hord s.out).mem_iff.2 hq
    exact ⟨.inl ⟨q, this, .inl rfl⟩, .inl ⟨q, this, .inr (.inr (.inl rfl))⟩⟩
  have hnotLit : ∀ a, In (own ++ ns) a → Occurs (o.order s.out) 1 a → ∀ lit, f a ≠ .literal lit := by
    intro a ha hoa lit e
    obtain ⟨⟨a', oa⟩, hm, rfl⟩ := List.mem_map.1 ha
    cases oa with
    | some i => rw [hf.assigned _ _ (hall.named _ _ hm)] at e; simp at e
    | none =>
      obtain ⟨x, hx⟩ := blank_of hb hf (hall.range _ hm) hoa (hall.unnamed _ hm)
      rw [hx] at e; simp at e
  -- the nodes are those of the specification
  have hstands : ∀ a, In (own ++ ns) a → Occurs (o.order s.out) 1 a →
      StandsForNode o (idsOf (own ++ ns)) (toSet qs) values (f a) := by
    intro a ha hoa
    obtain ⟨⟨a', oa⟩, hm, rfl⟩ := List.mem_map.1 ha
    simp only at hoa ⊢
    cases oa with
    | some i => exact .inl ⟨i, List.mem_filterMap.2 ⟨_, hm, rfl⟩, hf.assigned _ _ (hall.named _ _ hm)⟩
    | none =>
      refine .inr ⟨?_, ?_⟩
      · rcases hall.range _ hm with e | ⟨i, e⟩ <;> simp only at e <;> subst e
        · exact .inl (hf.input 0 hoa (hall.unnamed _ hm))
        · obtain ⟨pos, p1, -⟩ := hf.generated
          exact .inr ⟨_, p1 i hoa (hall.unnamed _ hm)⟩
      · rcases hoa with ⟨q, hq, h⟩ | ⟨i, hi, rfl⟩
        · have hq := (hord s.out).mem_iff.1 hq
          have hD := (hmem _).2 ⟨q, hq, rfl⟩
          obtain ⟨⟨p, hp⟩, hg⟩ := hform q hq
          have hne : ∀ t, a' ≠ .term t := by
            intro t e
            subst e
            rcases hall.range _ hm with h | ⟨i, h⟩ <;> simp at h
          rcases h with rfl | rfl | rfl | h
          · exact .inr ⟨_, hD, .inl rfl⟩
          · exact absurd hp (hne p)
          · exact .inr ⟨_, hD, .inr rfl⟩
          · rw [hg] at h; simp at h
        · rw [hvals]
          exact .inl (List.mem_map.2 ⟨_, List.mem_range.2 hi, rfl⟩)
  refine ⟨fun q hq => ?_, fun E hE hst => ?_⟩
  · obtain ⟨q, h, rfl⟩ := (hmem _).1 hq
    exact hstands q.s (hsubj q h) (hocc q h).1
  have hN : Named s (In (own ++ ns)) (Occurs (o.order s.out) 1) f E := {
    contains := fun q hq => hst.contains _ ((hmem _).2 ⟨q, hq, rfl⟩)
    about := by
      intro q' hq' hg a ha hoa hs
      by_cases hD : q' ∈ toSet qs
      · exact (hmem _).1 hD
      · exact absurd (hs ▸ hstands a ha hoa) (hst.other q' hq' hD hg).1
    literals := by
      intro q' hq' hg
      by_cases hD : q' ∈ toSet qs
      · obtain ⟨q, hq, rfl⟩ := (hmem _).1 hD
        exact hnotLit q.s (hsubj q hq) (hocc q hq).1
      · exact (hst.other q' hq' hD hg).2
    nodup := hE
    term := hf.term
    assigned := hf.assigned
    subj := hsubj
    form := hform
    inj := fun a b ha hb' hoa hob e => names_inj hb hf hall hid ha hb' hoa hob e
    occ := hocc
    blank := by
      intro a i ha hoa hta hne' e
      obtain ⟨⟨a', oa⟩, hm, rfl⟩ := List.mem_map.1 ha
      obtain ⟨x, hx⟩ := blank_of hb hf (hall.range _ hm) hoa hta
      rw [hx] at e; simp at e
    notLit := hnotLit }
  obtain ⟨m, w, hw, hsame⟩ := rep_back hT hsort hx le hN n ref (.input 0) v (.refl ref) hv h7 (.inr ⟨0, by omega, rfl⟩)
  refine ⟨w, m, fun m' hm' => ?_, hsame⟩
  rw [hvals]
  exact hyd_mono hm' hw

theorem dataset_nodup {c : DeCtx} {n : Nat} {v : Value} {ref : Term} {o : DeOptions} {D : List (Quad Term)} {subjects : List Term}
    (hrun : dehydrate c n v ref o = .ok (D, subjects)) : D.Nodup := by
  unfold dehydrate at hrun
  cases hr : c.reg ref with
  | none => simp [hr] at hrun
  | some l =>
    simp only [hr] at hrun
    split at hrun
    · split at hrun
      · simp at hrun
      · simp only [Out.ok.injEq, Prod.mk.injEq] at hrun
        rw [← hrun.1]
        exact List.nodup_dedup _
    all_goals simp at hrun

theorem round_trip (c : DeCtx) (le : TypedValue Term → TypedValue Term → Bool) (o : DeOptions) (hx : XsdLaws c.xsd)
    (hsort : c.reg.Sorted) (hb : BlankNames o) (hord : ∀ l, (o.order l).Perm l) (ref : Term)
    (htree : TreeLayouts c.reg c.xsd ref) (n : Nat) (v : Value) (hv : v.Sorted) (hne : Recoverable c.reg ref v)
    (hid : (nodeIds c.reg n ref v).Nodup) (D : List (Quad Term)) (subjects : List Term)
    (hrun : dehydrate c n v ref o = .ok (D, subjects)) :
    ∃ w N, (∀ m, N ≤ m → Hydrate.hydrate (HyCtx.ofTerms c.reg c.xsd le D) m none ref subjects = .ok w) ∧
      SameTree c.reg ref v w.untype :=
  (round_trip_stored c le o hx hsort hb hord ref htree n v hv hne hid D subjects hrun).2 D (dataset_nodup hrun)
    ⟨fun _ h => h, fun _ h h' => absurd h h'⟩

end Verif.RoundTrip
