import Verif.Registry

/-!
# Hydration and dehydration only look at the layouts that can be reached
-/

set_option linter.unusedSectionVars false
set_option linter.unusedSimpArgs false

namespace Verif

/-! ## Hydration -/

namespace Hydrate

variable {R : Type _} [DecidableEq R]

/-- The two recursive calls agree on a layout. -/
def RecAgree (rec rec' : Rec R) (r : R) : Prop := ∀ g ins, rec g r ins = rec' g r ins

theorem subValue_agree {rec rec' : Rec R} (g : Option R) (fmt : ValueFormat R) (σ : Subst R) (h : RecAgree rec rec' fmt.layout) :
    subValue rec g fmt σ = subValue rec' g fmt σ := by
  simp only [subValue, h _ _]

variable (c : HyCtx R) (reg : Registry R)

theorem variants_agree {rec rec' : Rec R} (g : Option R) (ref : R) (σ : Subst R) (vs : List (Variant R)) :
    ∀ (i : Nat) (sel : Option (Nat × TypedValue R)), (∀ v ∈ vs, RecAgree rec rec' v.value.layout) →
      variants c rec g ref σ i vs sel = variants { c with reg := reg } rec' g ref σ i vs sel := by
  induction vs with
  | nil => intro i sel _; cases sel <;> rfl
  | cons v vs ih =>
    intro i sel h
    have h1 := h v (by simp)
    have h2 := fun i sel => ih i sel fun v hv => h v (by simp [hv])
    unfold variants
    simp only [subValue_agree g v.value _ h1, h2]
    rfl

theorem fields_agree {rec rec' : Rec R} (g : Option R) (ref : R) (σ : Subst R) (fs : List (Value × Field R))
    (h : ∀ f ∈ fs, RecAgree rec rec' f.2.value.layout) :
    fields c rec g ref σ fs = fields { c with reg := reg } rec' g ref σ fs := by
  induction fs with
  | nil => rfl
  | cons f fs ih =>
    obtain ⟨k, f⟩ := f
    have h1 := h (k, f) (by simp)
    have h2 := ih fun v hv => h v (by simp [hv])
    unfold fields
    simp only [subValue_agree g f.value _ h1, h2]
    rfl

theorem nodes_agree {rec rec' : Rec R} (g : Option R) (ref : R) (node : ItemLayout R) (σ : Subst R) (tail : R)
    (h : RecAgree rec rec' node.value.layout) (n : Nat) : ∀ head,
    nodes c rec g ref node σ tail n head = nodes { c with reg := reg } rec' g ref node σ tail n head := by
  induction n with
  | zero => intro head; unfold nodes; rfl
  | succ n ih =>
    intro head
    unfold nodes
    simp only [subValue_agree g node.value _ h, ih]
    rfl

theorem sizedItems_agree {rec rec' : Rec R} (g : Option R) (ref : R) (σ : Subst R) (is : List (ItemLayout R)) :
    ∀ (i : Nat), (∀ i ∈ is, RecAgree rec rec' i.value.layout) →
      sizedItems c rec g ref σ i is = sizedItems { c with reg := reg } rec' g ref σ i is := by
  induction is with
  | nil => intro i _; rfl
  | cons x is ih =>
    intro i h
    have h1 := h x (by simp)
    have h2 := fun i => ih i fun v hv => h v (by simp [hv])
    unfold sizedItems
    simp only [subValue_agree g x.value _ h1, h2]
    rfl

theorem unorderedItems_agree {rec rec' : Rec R} (g : Option R) (fmt : ValueFormat R) (h : RecAgree rec rec' fmt.layout) (n : Nat) :
    ∀ st, unorderedItems c rec g fmt n st = unorderedItems { c with reg := reg } rec' g fmt n st := by
  induction n with
  | zero => intro st; rfl
  | succ n ih =>
    intro st
    unfold unorderedItems
    simp only [subValue_agree g fmt _ h, ih]

theorem layout_agree {rec rec' : Rec R} (n : Nat) (g : Option R) (ref : R) (ins : List R) (l : Layout R)
    (h : ∀ r, l.Mentions r → RecAgree rec rec' r) :
    layout c rec n g ref ins l = layout { c with reg := reg } rec' n g ref ins l := by
  cases l with
  | sum l =>
    unfold layout
    simp only [variants_agree c reg g ref _ l.variants 0 none fun v hv => h _ (.variant hv)]
    rfl
  | product l =>
    unfold layout
    simp only [fields_agree c reg g ref _ l.fields fun f hf => h _ (.field (k := f.1) hf)]
    rfl
  | unordered l =>
    unfold layout
    simp only [unorderedItems_agree c reg g l.item.value (h _ .unorderedItem)]
    rfl
  | ordered l =>
    unfold layout
    simp only [nodes_agree c reg g ref l.node _ _ (h _ .node)]
    rfl
  | sized l =>
    unfold layout
    simp only [sizedItems_agree c reg g ref _ l.items 0 fun i hi => h _ (.sizedItem hi)]
    rfl
  | _ => rfl

theorem hydrate_local (n : Nat) : ∀ (g : Option R) (ref : R) (ins : List R),
    (∀ r, c.reg.Reaches ref r → reg r = c.reg r) → hydrate c n g ref ins = hydrate { c with reg := reg } n g ref ins := by
  induction n with
  | zero => intros; rfl
  | succ n ih =>
    intro g ref ins h
    have hr := h ref (.refl _)
    unfold hydrate
    simp only [hr]
    cases hl : c.reg ref with
    | none => rfl
    | some l =>
      simp only
      rw [layout_agree c reg n g ref ins l fun r hm g ins => ih g r ins fun r' hr' => h r' (.step hl hm hr')]

end Hydrate

/-! ## Dehydration -/

namespace Dehydrate

/-- The two recursive calls agree on a layout. -/
def RecAgree (rec rec' : Rec) (r : Term) : Prop := ∀ v g ins, rec v g r ins = rec' v g r ins

theorem subValue_agree {rec rec' : Rec} (g : Option IRes) (fmt : ValueFormat Term) (env : Env IRes) (v : Value)
    (h : RecAgree rec rec' fmt.layout) : subValue rec g fmt env v = subValue rec' g fmt env v := by
  simp only [subValue, h _ _ _]

theorem variants_agree {rec rec' : Rec} (g : Option IRes) (env : Env IRes) (v : Value) (vs : List (Variant Term)) :
    ∀ sel, (∀ v ∈ vs, RecAgree rec rec' v.value.layout) → variants rec g env v vs sel = variants rec' g env v vs sel := by
  induction vs with
  | nil => intro sel _; cases sel <;> rfl
  | cons x vs ih =>
    intro sel h
    have h1 := h x (by simp)
    have h2 := fun sel => ih sel fun v hv => h v (by simp [hv])
    unfold variants
    simp only [subValue_agree g x.value _ v h1, h2]

theorem mem_of_field_lookup {key : Value} {fs : List (Value × Field Term)} {f : Field Term} (h : lookup key fs = some f) :
    ∃ k, (k, f) ∈ fs := by
  unfold lookup at h
  simp only [Option.map_eq_some_iff] at h
  obtain ⟨e, he, rfl⟩ := h
  exact ⟨e.1, List.mem_of_find?_eq_some he⟩

theorem entries_agree {rec rec' : Rec} (g : Option IRes) (env : Env IRes) (fs : List (Value × Field Term))
    (h : ∀ f ∈ fs, RecAgree rec rec' f.2.value.layout) (m : List (Value × Value)) :
    entries rec g env fs m = entries rec' g env fs m := by
  induction m with
  | nil => rfl
  | cons e m ih =>
    obtain ⟨k, v⟩ := e
    unfold entries
    cases hl : lookup k fs with
    | none => rfl
    | some f =>
      obtain ⟨k', hk⟩ := mem_of_field_lookup hl
      simp only [subValue_agree g f.value _ v (h _ hk), ih]

theorem items_agree {rec rec' : Rec} (g : Option IRes) (env : Env IRes) (item : ItemLayout Term)
    (h : RecAgree rec rec' item.value.layout) (vs : List Value) : items rec g env item vs = items rec' g env item vs := by
  induction vs with
  | nil => rfl
  | cons v vs ih =>
    unfold items
    simp only [subValue_agree g item.value _ v h, ih]

theorem nodes_agree {rec rec' : Rec} (g : Option IRes) (env : Env IRes) (node : ItemLayout Term) (tail : Pattern Term)
    (h : RecAgree rec rec' node.value.layout) (vs : List Value) :
    ∀ head, nodes rec g env node tail head vs = nodes rec' g env node tail head vs := by
  induction vs with
  | nil => intro head; rfl
  | cons v vs ih =>
    intro head
    unfold nodes
    simp only [subValue_agree g node.value _ v h, ih]

theorem sizedItems_agree {rec rec' : Rec} (g : Option IRes) (env : Env IRes) (vs : List Value) :
    ∀ is : List (ItemLayout Term), (∀ i ∈ is, RecAgree rec rec' i.value.layout) →
      sizedItems rec g env vs is = sizedItems rec' g env vs is := by
  induction vs with
  | nil => intro is _; cases is <;> rfl
  | cons v vs ih =>
    intro is h
    cases is with
    | nil => rfl
    | cons i is =>
      unfold sizedItems
      simp only [subValue_agree g i.value _ v (h i (by simp)), ih is fun i hi => h i (by simp [hi])]

variable (c : DeCtx) (reg : Registry Term)

theorem layout_agree {rec rec' : Rec} (v : Value) (g : Option IRes) (ref : Term) (ins : List IRes) (l : Layout Term)
    (h : ∀ r, l.Mentions r → RecAgree rec rec' r) :
    layout c rec v g ref ins l = layout { c with reg := reg } rec' v g ref ins l := by
  cases l with
  | sum l =>
    unfold layout
    simp only [variants_agree g _ v l.variants none fun v hv => h _ (.variant hv)]
  | product l =>
    cases v with
    | map m =>
      unfold layout
      simp only [entries_agree g _ l.fields fun f hf => h _ (.field (k := f.1) hf)]
    | _ => rfl
  | unordered l =>
    cases v with
    | list vs =>
      unfold layout
      simp only [items_agree g _ l.item (h _ .unorderedItem)]
    | _ => rfl
  | ordered l =>
    cases v with
    | list vs =>
      unfold layout
      simp only [nodes_agree g _ l.node _ (h _ .node)]
    | _ => rfl
  | sized l =>
    cases v with
    | list vs =>
      unfold layout
      simp only [sizedItems_agree g _ vs l.items fun i hi => h _ (.sizedItem hi)]
    | _ => rfl
  | _ => rfl

theorem dehydrateWith_local (n : Nat) : ∀ (v : Value) (g : Option IRes) (ref : Term) (ins : List IRes),
    (∀ r, c.reg.Reaches ref r → reg r = c.reg r) →
      dehydrateWith c n v g ref ins = dehydrateWith { c with reg := reg } n v g ref ins := by
  induction n with
  | zero => intros; rfl
  | succ n ih =>
    intro v g ref ins h
    have hr := h ref (.refl _)
    unfold dehydrateWith
    simp only [hr]
    cases hl : c.reg ref with
    | none => rfl
    | some l =>
      simp only
      rw [layout_agree c reg v g ref ins l fun r hm v g ins => ih v g r ins fun r' hr' => h r' (.step hl hm hr')]

theorem dehydrate_local (n : Nat) (v : Value) (ref : Term) (o : DeOptions)
    (h : ∀ r, c.reg.Reaches ref r → reg r = c.reg r) : dehydrate c n v ref o = dehydrate { c with reg := reg } n v ref o := by
  unfold dehydrate
  simp only [h ref (.refl _)]
  cases hl : c.reg ref with
  | none => rfl
  | some l =>
    simp only
    rw [dehydrateWith_local c reg n v none ref _ h]

end Dehydrate

end Verif
