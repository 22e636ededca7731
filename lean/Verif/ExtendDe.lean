import Verif.ExtendSpec
import Verif.RelaxDe

/-!
# Dehydration with more optional fields

Helper lemmas for C104. No further code is modelled.
-/

set_option linter.unusedSectionVars false
set_option linter.unusedSimpArgs false

namespace Verif.Dehydrate

variable {c : DeCtx} {rec rec' : Rec} {g : Option IRes} {env : Env IRes} {K : Value → Prop}

/-- No record in the tree has one of these keys. -/
def Without (K : Value → Prop) (v : Value) : Prop := ∀ k, K k → ¬ v.HasKey k

theorem Without.entry {m : List (Value × Value)} (h : Without K (.map m)) {k v : Value} (hm : (k, v) ∈ m) : Without K v :=
  fun k' hk hv => h k' hk (.entry hm hv)

theorem Without.key {m : List (Value × Value)} (h : Without K (.map m)) {k v : Value} (hm : (k, v) ∈ m) : ¬ K k :=
  fun hk => h k hk (.here hm)

theorem Without.item {vs : List Value} (h : Without K (.list vs)) {v : Value} (hm : v ∈ vs) : Without K v :=
  fun k' hk hv => h k' hk (.item hm hv)

theorem subValue_congr' {fmt : ValueFormat Term} {v : Value} (h : ∀ g i, rec v g fmt.layout i = rec' v g fmt.layout i) (env : Env IRes) :
    subValue rec' g fmt env v = subValue rec g fmt env v := by
  simp only [subValue, h]

theorem lookup_extend {fs fs' : List (Value × Field Term)} (h : FieldsExtended (fun k f => f.required = false ∧ K k) fs fs') {k : Value}
    (hk : ¬ K k) : lookup k fs' = lookup k fs := by
  unfold lookup
  induction h with
  | nil => rfl
  | keep k' f _ ih =>
    simp only [List.find?_cons]
    cases k' == k with
    | true => rfl
    | false => exact ih
  | @add k' f fs fs' hp _ ih =>
    have : (k' == k) = false := by
      rw [beq_eq_false_iff_ne]
      rintro rfl
      exact hk hp.2
    rw [List.find?_cons, this]
    exact ih

theorem requireKeys_extend {fs fs' : List (Value × Field Term)} (h : FieldsExtended (fun k f => f.required = false ∧ K k) fs fs')
    (ref : Term) (m : List (Value × Value)) : requireKeys ref m fs' = requireKeys ref m fs := by
  induction h with
  | nil => rfl
  | keep k' f _ ih => simp only [requireKeys, ih]
  | add hp _ ih => simp only [requireKeys, ih, hp.1, Bool.false_and, Bool.false_eq_true, if_false]

theorem entries_extend {fs fs' : List (Value × Field Term)} (h : FieldsExtended (fun k f => f.required = false ∧ K k) fs fs')
    {m : List (Value × Value)} (hm : ∀ e ∈ m, ¬ K e.1)
    (hrec : ∀ e ∈ m, ∀ f ∈ fs, ∀ g i, rec e.2 g f.2.value.layout i = rec' e.2 g f.2.value.layout i) :
    entries rec' g env fs' m = entries rec g env fs m := by
  induction m with
  | nil => rfl
  | cons e m ih =>
    obtain ⟨k, w⟩ := e
    rw [List.forall_mem_cons] at hm hrec
    unfold entries
    rw [lookup_extend h hm.1]
    cases hl : lookup k fs with
    | none => rfl
    | some f =>
      have hf : ∃ e ∈ fs, e.2 = f := by
        unfold lookup at hl
        obtain ⟨e, he, rfl⟩ := Option.map_eq_some_iff.1 hl
        exact ⟨e, List.mem_of_find?_eq_some he, rfl⟩
      obtain ⟨e, he, rfl⟩ := hf
      simp only [ih hm.2 hrec.2, subValue_congr' (g := g) (hrec.1 e he)]

theorem variants_congr' {v : Value} {vs : List (Variant Term)}
    (hrec : ∀ x ∈ vs, ∀ g i, rec v g x.value.layout i = rec' v g x.value.layout i) (sel : Option (List (Quad IRes))) :
    variants rec' g env v vs sel = variants rec g env v vs sel := by
  induction vs generalizing sel with
  | nil => cases sel <;> rfl
  | cons x vs ih =>
    rw [List.forall_mem_cons] at hrec
    simp only [variants, ih hrec.2, subValue_congr' (g := g) hrec.1]

theorem items_congr' {item : ItemLayout Term} {vs : List Value}
    (hrec : ∀ v ∈ vs, ∀ g i, rec v g item.value.layout i = rec' v g item.value.layout i) :
    items rec' g env item vs = items rec g env item vs := by
  induction vs with
  | nil => rfl
  | cons v vs ih =>
    rw [List.forall_mem_cons] at hrec
    simp only [items, ih hrec.2, subValue_congr' (g := g) hrec.1]

theorem nodes_congr' {node : ItemLayout Term} {vs : List Value}
    (hrec : ∀ v ∈ vs, ∀ g i, rec v g node.value.layout i = rec' v g node.value.layout i) (tail : Pattern Term) (head : IRes) :
    nodes rec' g env node tail head vs = nodes rec g env node tail head vs := by
  induction vs generalizing head with
  | nil => rfl
  | cons v vs ih =>
    rw [List.forall_mem_cons] at hrec
    simp only [nodes, ih hrec.2, subValue_congr' (g := g) hrec.1]

theorem sizedItems_congr' {is : List (ItemLayout Term)} {vs : List Value}
    (hrec : ∀ v ∈ vs, ∀ x ∈ is, ∀ g i, rec v g x.value.layout i = rec' v g x.value.layout i) :
    sizedItems rec' g env vs is = sizedItems rec g env vs is := by
  induction vs generalizing is with
  | nil => cases is <;> rfl
  | cons v vs ih =>
    cases is with
    | nil => rfl
    | cons x is =>
      have h1 := hrec v List.mem_cons_self x List.mem_cons_self
      have h2 := ih (is := is) fun w hw y hy => hrec w (List.mem_cons_of_mem _ hw) y (List.mem_cons_of_mem _ hy)
      simp only [sizedItems, h2, subValue_congr' (g := g) h1]

theorem layout_extend {v : Value} (hv : Without K v) (ref : Term) (inputs : List IRes) {l l' : Layout Term}
    (hl : l.Extended (fun _ k f => f.required = false ∧ K k) l')
    (hrec : ∀ f ∈ l.formats, ∀ w, Without K w → ∀ g i, rec w g f.layout i = rec' w g f.layout i) :
    layout c rec' v g ref inputs l' = layout c rec v g ref inputs l := by
  have hproduct : ∀ (input k : Nat) (dataset : List (QuadPat Term)) (fs fs' : List (Value × Field Term)),
      FieldsExtended (fun k f => f.required = false ∧ K k) fs fs' →
      (∀ f ∈ fs, ∀ w, Without K w → ∀ g i, rec w g f.2.value.layout i = rec' w g f.2.value.layout i) →
      layout c rec' v g ref inputs (.product ⟨input, k, fs', dataset⟩) =
        layout c rec v g ref inputs (.product ⟨input, k, fs, dataset⟩) := by
    intro input k dataset fs fs' h hr
    simp only [layout]
    split
    · rename_i m
      have he : ∀ env, entries rec' g env fs' m = entries rec g env fs m := fun env =>
        entries_extend h (fun e he => hv.key (k := e.1) (v := e.2) he) fun e he f hf => hr f hf e.2 (hv.entry (k := e.1) he)
      simp only [he, requireKeys_extend h]
    · rfl
  cases hl with
  | product input _ dataset h => exact hproduct _ _ _ _ _ h fun f hf => hrec f.2.value (List.mem_map.2 ⟨f, hf, rfl⟩)
  | refl l =>
    cases l with
    | product l =>
      have hrefl : ∀ fs : List (Value × Field Term), FieldsExtended (fun k f => f.required = false ∧ K k) fs fs := by
        intro fs
        induction fs with
        | nil => exact .nil
        | cons a fs ih => exact .keep a.1 a.2 ih
      exact hproduct _ _ _ _ _ (hrefl _) fun f hf => hrec f.2.value (List.mem_map.2 ⟨f, hf, rfl⟩)
    | sum l =>
      have h : ∀ env, variants rec' g env v l.variants none = variants rec g env v l.variants none := fun env =>
        variants_congr' (fun x hx => hrec x.value (List.mem_map.2 ⟨x, hx, rfl⟩) v hv) _
      simp only [layout, h]
    | unordered l =>
      simp only [layout]
      split
      · rename_i vs
        have h : ∀ env, items rec' g env l.item vs = items rec g env l.item vs := fun env =>
          items_congr' fun w hw => hrec l.item.value (by simp [Layout.formats]) w (hv.item hw)
        simp only [h]
      · rfl
    | ordered l =>
      simp only [layout]
      split
      · rename_i vs
        have h : ∀ env head, nodes rec' g env l.node l.tail head vs = nodes rec g env l.node l.tail head vs := fun env head =>
          nodes_congr' (fun w hw => hrec l.node.value (by simp [Layout.formats]) w (hv.item hw)) _ _
        simp only [h]
      · rfl
    | sized l =>
      simp only [layout]
      split
      · rename_i vs
        have h : ∀ env, sizedItems rec' g env vs l.items = sizedItems rec g env vs l.items := fun env =>
          sizedItems_congr' fun w hw x hx => hrec x.value (List.mem_map.2 ⟨x, hx, rfl⟩) w (hv.item hw)
        simp only [h]
      · rfl
    | _ => rfl

theorem dehydrateWith_extend {reg' : Registry Term} (hrel : c.reg.Extended (fun _ k f => f.required = false ∧ K k) reg')
    (hcomp : c.reg.Complete) (n : Nat) (v : Value) (hv : Without K v) (g : Option IRes) (ref : Term) (hr : (c.reg ref).isSome = true)
    (inputs : List IRes) : dehydrateWith { c with reg := reg' } n v g ref inputs = dehydrateWith c n v g ref inputs := by
  induction n generalizing v g ref inputs with
  | zero => rfl
  | succ n ih =>
    obtain ⟨l, h⟩ := Option.isSome_iff_exists.1 hr
    obtain ⟨l', h2, h3⟩ := hrel ref l h
    unfold dehydrateWith
    dsimp only
    rw [h, h2]
    dsimp only
    have hc : l'.inputCount = l.inputCount := by cases h3 <;> rfl
    rw [hc]
    split
    · rfl
    · have he : ∀ (rec : Rec) l, layout { c with reg := reg' } rec v g ref inputs l = layout c rec v g ref inputs l := by
        intro rec l
        cases l <;> rfl
      rw [he]
      exact layout_extend hv ref inputs h3 fun f hf w hw g i => (ih w hw g f.layout (hcomp ref l h f hf) i).symm

theorem dehydrate_extend {reg' : Registry Term} (hrel : c.reg.Extended (fun _ k f => f.required = false ∧ K k) reg')
    (hcomp : c.reg.Complete) (n : Nat) (v : Value) (hv : Without K v) (ref : Term) (hr : (c.reg ref).isSome = true) (o : DeOptions) :
    dehydrate { c with reg := reg' } n v ref o = dehydrate c n v ref o := by
  obtain ⟨l, h⟩ := Option.isSome_iff_exists.1 hr
  obtain ⟨l', h2, h3⟩ := hrel ref l h
  have hc : l'.inputCount = l.inputCount := by cases h3 <;> rfl
  unfold dehydrate
  dsimp only
  rw [h, h2]
  dsimp only
  rw [hc, dehydrateWith_extend hrel hcomp n v hv none ref hr]

end Verif.Dehydrate
