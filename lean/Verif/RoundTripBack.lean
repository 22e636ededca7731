import Verif.RoundTripSkip

/-!
# Reading back what was written

`rep_back`: hydrating a resource that represents a tree gives back the same tree.
-/

set_option linter.unusedSectionVars false
set_option linter.unusedSimpArgs false

namespace Verif.RoundTrip

open Dehydrate

variable {c : DeCtx} {F : DeState} {N Occ : IRes → Prop} {f : IRes → Term} {D : List (Quad Term)} {S : Term → Prop}

theorem value_le_antisymm {a b : Value} (h : Value.le a b = true) (h' : Value.le b a = true) : a = b := by
  have := lexLe_antisymm _ _ h h'
  exact (Value.prefixFree a b [] [] (by rw [this])).1

instance : Inhabited Value := ⟨.list []⟩

theorem resource_var (t : Term) : Hydrate.resource (.var 0) [some t] = .ok t := rfl

theorem resource_res (t : Term) (σ : Subst Term) : Hydrate.resource (.res t) σ = .ok t := rfl

theorem sorted_unique {l l' : List Value} (h : l.Pairwise fun a b => Value.le a b = true ∧ a ≠ b)
    (h' : l'.Pairwise fun a b => Value.le a b = true ∧ a ≠ b) (hm : ∀ a, a ∈ l ↔ a ∈ l') : l = l' := by
  have hp : l.Perm l' := (List.perm_ext_iff_of_nodup (h.imp fun h => h.2) (h'.imp fun h => h.2)).2 hm
  exact hp.eq_of_pairwise (fun a b _ _ h1 h2 => value_le_antisymm h1.1 h2.1) h h'

theorem data_back {α : Type} (hc : HyCtx Term) (hD : hc.ds.Nodup) {l : DataLayout Term} (hp : l.Plain)
    (ref t : Term) {i text : String} (hi : hc.irisOf l.datatype = [i]) (hl : hc.literalsOf t = [⟨text, .any i⟩])
    {parse : String → String → Out (HyError Term) α} {a : α} (hparse : parse text i = .ok a) (mk : α → TypedLiteral Term) :
    Hydrate.hydrateData hc none ref l [t] parse mk = .ok (mk a) := by
  obtain ⟨h1, h2, h3⟩ := hp
  unfold Hydrate.hydrateData
  rw [h1, h2, h3, required_nil hD]
  simp only [Out.bind_ok, resource_var, hi, hl,
    Hydrate.scanLiterals, List.any_cons, beq_self_eq_true, Bool.true_or, if_true, hparse]

theorem forall₂_same {reg : Registry Term} {ref : Term} {vs : List Value} {ws : List (TypedValue Term)}
    (h : List.Forall₂ (fun v w => SameTree reg ref v w.untype) vs ws) :
    vs.length = (ws.map TypedValue.untype).length ∧
      ∀ e ∈ vs.zip (ws.map TypedValue.untype), SameTree reg ref e.1 e.2 := by
  induction h with
  | nil => simp
  | cons h1 _ ih =>
    simp only [List.map_cons, List.length_cons, ih.1, List.zip_cons_cons, List.mem_cons, forall_eq_or_imp]
    exact ⟨trivial, h1, ih.2⟩

theorem rep_back (hT : TreeSet c S) (hsort : c.reg.Sorted) (hx : XsdLaws c.xsd)
    (le : TypedValue Term → TypedValue Term → Bool) (hN : Named F N Occ f D) (n : Nat) :
    ∀ ref r v, S ref → v.Sorted → Rep c F N n ref r v → Occ r →
      Back (HyCtx.ofTerms c.reg c.xsd le D) ref (f r) v := by
  induction n with
  | zero => intro ref r v _ _ h; exact h.elim
  | succ n ih =>
    intro ref r v hS hv hrep ho
    obtain ⟨l, hl, hrep⟩ := hrep
    obtain ⟨l', hl', htree⟩ := hT.tree ref hS
    rw [hl] at hl'
    cases hl'
    have hD : (HyCtx.ofTerms c.reg c.xsd le D).ds.Nodup := hN.nodup
    have hlr : (HyCtx.ofTerms c.reg c.xsd le D).reg ref = some l := hl
    cases l with
    | never => exact hrep.elim
    | always => exact hrep.elim
    | sum l =>
      obtain ⟨before, x, after, hvs, h1, h2, h3⟩ := hrep
      have hx' : x ∈ l.variants := by rw [hvs]; simp
      have hS' : ∀ x ∈ l.variants, S x.value.layout := fun x hx => hT.step ref _ x.value hS hl (by
        simp only [Layout.formats, List.mem_map]; exact ⟨x, hx, rfl⟩)
      have hfail : ∀ ys, ys ⊆ before ++ after → ∀ y ∈ ys, Fails (HyCtx.ofTerms c.reg c.xsd le D) (f r) y := by
        intro ys hys y hy
        have hm : y ∈ l.variants := by
          rw [hvs]
          rcases List.mem_append.1 (hys hy) with h | h <;> simp [h]
        obtain ⟨-, hy2, hy3⟩ := htree.variants y hm
        exact skip_fails hT le hN ho (hS' y hm) hy2 hy3 (h3 y (hys hy))
      obtain ⟨-, hx2, hx3⟩ := htree.variants x hx'
      obtain ⟨k, w, hw, hsame⟩ := ih _ _ _ (hS' x hx') hv h2 ho
      refine ⟨max k 2 + 1, .variant w ref before.length, ?_, .sum _ _ hl hx' hsame⟩
      rw [hydrate_succ hlr (by rintro k ⟨⟩; exact htree.input)]
      simp only [Hydrate.layout]
      rw [htree.intro, required_const hD _ htree.const (hN.const fun q hq => h1 q (by simp [hq])), Out.bind_ok, hvs,
        variants_fails _ ref (fun y hy frag => hfail before (by simp) y hy frag _ (by omega))]
      have hu : ∀ frag, Hydrate.uniqueMatch (HyCtx.ofTerms c.reg c.xsd le D) frag [some (f r)] x.dataset none =
          .ok (some [some (f r)]) := by
        intro frag
        rw [Hydrate.uniqueMatch_eq_some _ hD _ _ _ _ (const_declared hx2)]
        exact match_const hx2 (hN.const fun q hq => h1 q (by simp [hq]))
      have hsub := sub_var (σ := [some (f r)]) hx3 rfl (hyd_mono (show k ≤ max k 2 by omega) hw)
      simp only [Hydrate.variants, hu, Out.bind_ok, hsub]
      rw [← List.append_nil after, variants_fails _ ref (fun y hy frag => hfail after (by simp) y hy frag _ (by omega))]
      simp [Hydrate.variants]
    | byteString l => exact hrep.elim
    | unit l =>
      obtain ⟨h1, rfl, h3⟩ := hrep
      refine ⟨1, .literal (.unit l.const ref), ?_, .leaf _⟩
      rw [hydrate_succ hlr (by rintro k ⟨⟩; rfl)]
      simp only [Hydrate.layout]
      rw [htree.1, required_const hD _ htree.2 (hN.const h3)]
      rfl
    | boolean l =>
      obtain ⟨b, rfl, h3⟩ := hrep
      refine ⟨1, .literal (.boolean b ref), ?_, .leaf _⟩
      rw [hydrate_succ hlr (by rintro k ⟨⟩; rfl)]
      simp only [Hydrate.layout]
      rw [data_back _ hD htree.1 ref (f r) (i := c.xsd.boolean) (text := c.xsd.printBoolean b) (a := b)
        (by rw [htree.2]; rfl) (by rw [hN.assigned _ _ h3]; rfl)
        (by simp [Hydrate.booleanValue, HyCtx.ofTerms, hx.bool, Out.ofOption])]
      rfl
    | number l =>
      obtain ⟨q, text, i, h1, h2, h3, rfl, h5⟩ := hrep
      refine ⟨1, .literal (.number q ref), ?_, .leaf _⟩
      rw [hydrate_succ hlr (by rintro k ⟨⟩; rfl)]
      simp only [Hydrate.layout]
      rw [data_back _ hD htree.1 ref (f r) (i := i) (text := text) (a := q)
        (by rw [h1]; rfl) (by rw [hN.assigned _ _ h5]; rfl)
        (by simp [Hydrate.numberValue, HyCtx.ofTerms, h2, hx.decimal _ _ h3, Out.ofOption])]
      rfl
    | textString l =>
      obtain ⟨t, i, h1, rfl, h5⟩ := hrep
      refine ⟨1, .literal (.textString t ref), ?_, .leaf _⟩
      rw [hydrate_succ hlr (by rintro k ⟨⟩; rfl)]
      simp only [Hydrate.layout]
      rw [data_back _ hD htree.1 ref (f r) (i := i) (text := t) (a := t)
        (by rw [h1]; rfl) (by rw [hN.assigned _ _ h5]; rfl) (by simp [Hydrate.textStringValue])]
      rfl
    | id l =>
      obtain ⟨t, rfl, h5⟩ := hrep
      refine ⟨1, .literal (.id t ref), ?_, .leaf _⟩
      rw [hydrate_succ hlr (by rintro k ⟨⟩; rfl)]
      simp only [Hydrate.layout, Hydrate.hydrateId]
      rw [htree.1, htree.2.1, htree.2.2, required_nil hD, hN.assigned _ _ h5]
      rfl
    | product l =>
      obtain ⟨m, rfl, h1, h2, h3, h4, h5, h6⟩ := hrep
      obtain ⟨hsm, hsv⟩ := sorted_map hv
      obtain ⟨k, m', hk, hkeys, hsame⟩ := fields_back hD hN h1 ho (l := l) htree
        (fun key v g x hm hg hrep hox => ih _ _ _ (hT.step ref _ g.value hS hl (by
          simp only [Layout.formats, List.mem_map]; exact ⟨_, hg, rfl⟩)) (hsv _ hm) hrep hox)
        h4 h5 h6 ref l.fields fun e he => he
      refine ⟨k + 1, .map m' ref, ?_, ?_⟩
      · rw [hydrate_succ hlr (by rintro k ⟨⟩; exact htree.input)]
        simp only [Hydrate.layout]
        rw [htree.intro, required_const hD _ htree.const (hN.const h2), Out.bind_ok, hk _ (Nat.le_refl _)]
        rfl
      · rw [TypedValue.untype, TypedValue.untypeMap_eq]
        have e : m.map Prod.fst = m'.map Prod.fst := by
          rw [hkeys]
          apply sorted_unique hsm (List.Pairwise.filter _ (hsort ref l hl))
          intro a
          simp only [List.mem_filter, decide_eq_true_eq]
          refine ⟨fun ha => ⟨?_, ha⟩, fun h => h.2⟩
          obtain ⟨⟨k, v⟩, hkv, rfl⟩ := List.mem_map.1 ha
          obtain ⟨g, hg⟩ := h3 k v hkv
          exact List.mem_map.2 ⟨_, hg, rfl⟩
        refine .product (l := l) _ _ hl (by rw [e, List.map_map]; rfl) h3 ?_
        intro key v v' g hv1 hv2 hg
        obtain ⟨⟨k2, w⟩, hw, e2⟩ := List.mem_map.1 hv2
        simp only [Prod.mk.injEq] at e2
        obtain ⟨rfl, rfl⟩ := e2
        obtain ⟨v2, g2, h7, h8, h9⟩ := hsame _ _ hw
        rw [eq_of_key (SortedKeys.nodup hsm) hv1 h7, eq_of_key (SortedKeys.nodup (hsort ref l hl)) hg h8]
        exact h9
    | unordered l =>
      obtain ⟨p, hset⟩ := htree
      obtain ⟨vs, rfl, h1, h2⟩ := hrep
      obtain ⟨xs, h3, h4, h5⟩ := h2 p hset
      obtain ⟨k, ws, hk, hl1, hl2⟩ := set_back hD hN h1 ho hset.2.2.2 (M := Rep c F N n l.item.value.layout)
        (fun v x hvs hr hox => ih _ _ _ (hT.step ref _ l.item.value hS hl (by simp [Layout.formats])) (sorted_list hv v hvs) hr hox)
        h3 h4 h5
      refine ⟨k + 1, .list (sortBy le ws) ref, ?_, ?_⟩
      · rw [hydrate_succ hlr (by rintro k ⟨⟩; exact hset.1)]
        simp only [Hydrate.layout]
        rw [hset.2.1, hset.2.2.1, required_nil hD, Out.bind_ok]
        have := hk k (Nat.le_refl _)
        dsimp only at this ⊢
        rw [this]
        rfl
      · rw [TypedValue.untype, TypedValue.untypeList_eq]
        have hmem : ∀ w, w ∈ (sortBy le ws).map TypedValue.untype ↔ ∃ w' ∈ ws, w'.untype = w := by
          intro w
          simp only [List.mem_map, (sortBy_perm le ws).mem_iff]
        obtain ⟨a, ha⟩ := skolem (l := vs) (P := fun v w => w ∈ (sortBy le ws).map TypedValue.untype ∧
          SameTree c.reg l.item.value.layout v w) (β := Value) (by
            intro v hv'
            obtain ⟨w, hw, hs⟩ := hl1 v hv'
            exact ⟨_, (hmem _).2 ⟨w, hw, rfl⟩, hs⟩)
        obtain ⟨b, hb⟩ := skolem (l := (sortBy le ws).map TypedValue.untype) (P := fun w v => v ∈ vs ∧
          SameTree c.reg l.item.value.layout v w) (β := Value) (by
            intro w hw
            obtain ⟨w', hw', rfl⟩ := (hmem _).1 hw
            exact hl2 w' hw')
        exact .unordered _ _ a b hl (fun v hv' => (ha v hv').1) (fun v hv' => (ha v hv').2) (fun v hv' => (hb v hv').1)
          (fun v hv' => (hb v hv').2)
    | ordered l =>
      obtain ⟨first, rest, tail, hch⟩ := htree
      obtain ⟨vs, rfl, h1, h2⟩ := hrep
      obtain ⟨k, ws, hk, hsame⟩ := chain_back hD hN hch (f r) (M := Rep c F N n l.node.value.layout)
        (fun v x hvs hr hox => ih _ _ _ (hT.step ref _ l.node.value hS hl (by simp [Layout.formats])) (sorted_list hv v hvs) hr hox)
        (fun _ => ho) (h2 first rest tail hch)
      refine ⟨max k ws.length + 1, .list ws ref, ?_, ?_⟩
      · rw [hydrate_succ hlr (by rintro k ⟨⟩; exact hch.1)]
        simp only [Hydrate.layout]
        have hnodes := (Hydrate.nodes_eq_ok _ hD (Hydrate.hydrate (HyCtx.ofTerms c.reg c.xsd le D) (max k ws.length)) none ref l.node
          [some (f r)] (.iri tail) (by
            have := (IsChain.closed hch).1
            rw [hch.2.2.2.2.2.2.1]
            exact this) (max k ws.length) (f r) ws).2 ⟨hk _ (by omega), by omega⟩
        rw [hch.2.1, hch.2.2.1, hch.2.2.2.1, hch.2.2.2.2.1, required_nil hD, Out.bind_ok]
        rw [resource_var, Out.bind_ok, resource_res, Out.bind_ok, hnodes]
        rfl
      · rw [TypedValue.untype, TypedValue.untypeList_eq]
        exact .ordered _ _ hl (forall₂_same hsame).1 (forall₂_same hsame).2
    | sized l =>
      obtain ⟨ht1, ht2, ht3, ht4, -⟩ := htree
      obtain ⟨vs, rfl, h1, h2, h3⟩ := hrep
      obtain ⟨k, ws, hk, hlen, hsame⟩ := sized_back hD hN h1 ho (M := Rep c F N n) ref
        (fun i hi => (ht4 i hi).imp fun _ h => h.1)
        (fun i v x hi hvs hr hox => ih _ _ _ (hT.step ref _ i.value hS hl (by
          simp only [Layout.formats, List.mem_map]; exact ⟨_, hi, rfl⟩)) (sorted_list hv v hvs) hr hox) h3 0
      refine ⟨k + 1, .list ws ref, ?_, ?_⟩
      · rw [hydrate_succ hlr (by rintro k ⟨⟩; exact ht1)]
        simp only [Hydrate.layout]
        rw [ht2, required_const hD _ ht3 (hN.const h2), Out.bind_ok, hk _ (Nat.le_refl _)]
        rfl
      · rw [TypedValue.untype, TypedValue.untypeList_eq]
        exact .sized _ _ hl h3.length_eq (by simpa using hlen) hsame

end Verif.RoundTrip
