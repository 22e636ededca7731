import Verif.ExtendSpec
import Verif.VariantOrderApart
import Verif.HydrateOk
import Verif.DeriveLemmas
import Verif.Relax

/-!
# Reading with more optional fields

Helper lemmas for C104. No further code is modelled.
-/

set_option linter.unusedSectionVars false
set_option linter.unusedSimpArgs false

namespace Verif

theorem Layout.Extended.inputCount_eq {R : Type _} {P : Nat → Value → Field R → Prop} {l l' : Layout R} (h : l.Extended P l') :
    l'.inputCount = l.inputCount := by
  cases h <;> rfl

theorem inGraph_triple {R : Type _} {pats : List (QuadPat R)} {p : QuadPat R} (hp : p ∈ pats) (g : Option R) :
    ∃ p' ∈ inGraph g pats, p'.s = p.s ∧ p'.p = p.p ∧ p'.o = p.o := by
  refine ⟨_, List.mem_map.2 ⟨p, hp, rfl⟩, ?_⟩
  split <;> exact ⟨rfl, rfl, rfl⟩

theorem not_match_of_unmentioned {R : Type _} {ds : List (Quad R)} {pats : List (QuadPat R)} (h : Unmentioned ds pats)
    (σ τ : Subst R) (g : Option R) : ¬ IsMatch ds σ (inGraph g pats) τ := by
  intro hm
  obtain ⟨p, hp, hq⟩ := h
  obtain ⟨p', hp', h1, h2, h3⟩ := inGraph_triple hp g
  obtain ⟨q, hqm, hs, hd, ho, -⟩ := hm.sat _ hp'
  rw [h1] at hs
  rw [h2] at hd
  rw [h3] at ho
  refine hq q hqm ⟨fun r hr => ?_, fun r hr => ?_, fun r hr => ?_⟩
  · rw [hr] at hs; exact hs
  · rw [hr] at hd; exact hd
  · rw [hr] at ho; exact ho

namespace Hydrate

variable {R : Type _} [DecidableEq R]

variable {c : HyCtx R} {rec rec' : Rec R} {g : Option R} {ref : R} {σ : Subst R}

theorem subValue_congr' {fmt : ValueFormat R} (h : ∀ g i, rec g fmt.layout i = rec' g fmt.layout i) (σ : Subst R) :
    subValue rec g fmt σ = subValue rec' g fmt σ := by
  simp only [subValue, h]

theorem fields_extend (hds : c.ds.Nodup) {fs fs' : List (Value × Field R)}
    (h : FieldsExtended (fun _ f => f.Unmentioned c.ds σ.length) fs fs')
    (hrec : ∀ e ∈ fs, ∀ g i, rec g e.2.value.layout i = rec' g e.2.value.layout i) :
    fields c rec' g ref σ fs' = fields c rec g ref σ fs := by
  induction h with
  | nil => rfl
  | keep k f _ ih =>
    rw [List.forall_mem_cons] at hrec
    simp only [fields, ih hrec.2, subValue_congr' (g := g) hrec.1]
  | @add k f fs fs' hp _ ih =>
    have hn : uniqueMatch c (.key ref k) (σ.intro f.intro) f.dataset g = .ok none :=
      (uniqueMatch_eq_none c hds _ _ _ g (declared_of_below hp.2.1 (by simp [length_intro]))).2
        fun τ => not_match_of_unmentioned hp.2.2 _ τ g
    rw [fields, hn, Out.bind_ok]
    dsimp only
    rw [hp.1, if_neg (by simp), ih hrec]

theorem variants_congr' {vs : List (Variant R)} (hrec : ∀ x ∈ vs, ∀ g i, rec g x.value.layout i = rec' g x.value.layout i)
    (i : Nat) (sel : Option (Nat × TypedValue R)) : variants c rec' g ref σ i vs sel = variants c rec g ref σ i vs sel := by
  induction vs generalizing i sel with
  | nil => cases sel <;> rfl
  | cons x vs ih =>
    rw [List.forall_mem_cons] at hrec
    simp only [variants, ih hrec.2, subValue_congr' (g := g) hrec.1]

theorem nodes_congr' {node : ItemLayout R} (hrec : ∀ g i, rec g node.value.layout i = rec' g node.value.layout i) (tail : R) (n : Nat)
    (head : R) : nodes c rec' g ref node σ tail n head = nodes c rec g ref node σ tail n head := by
  induction n generalizing head with
  | zero => unfold nodes; rfl
  | succ n ih =>
    unfold nodes
    simp only [ih, subValue_congr' (g := g) hrec]

theorem sizedItems_congr' {is : List (ItemLayout R)} (hrec : ∀ x ∈ is, ∀ g i, rec g x.value.layout i = rec' g x.value.layout i)
    (i : Nat) : sizedItems c rec' g ref σ i is = sizedItems c rec g ref σ i is := by
  induction is generalizing i with
  | nil => rfl
  | cons x is ih =>
    rw [List.forall_mem_cons] at hrec
    simp only [sizedItems, ih hrec.2, subValue_congr' (g := g) hrec.1]

theorem unorderedItems_congr' {fmt : ValueFormat R} (hrec : ∀ g i, rec g fmt.layout i = rec' g fmt.layout i) (n : Nat)
    (st : Matching.Stack R) : unorderedItems c rec' g fmt n st = unorderedItems c rec g fmt n st := by
  induction n generalizing st with
  | zero => rfl
  | succ n ih => simp only [unorderedItems, ih, subValue_congr' (g := g) hrec]

theorem layout_congr' {l : Layout R} (hrec : ∀ f ∈ l.formats, ∀ g i, rec g f.layout i = rec' g f.layout i) (n : Nat) (inputs : List R)
    (hp : ∀ p, l ≠ .product p) : layout c rec' n g ref inputs l = layout c rec n g ref inputs l := by
  cases l with
  | product l => exact absurd rfl (hp l)
  | sum l => simp only [layout, variants_congr' (c := c) (g := g) (ref := ref) fun x hx => hrec x.value (List.mem_map.2 ⟨x, hx, rfl⟩)]
  | sized l => simp only [layout, sizedItems_congr' (c := c) (g := g) (ref := ref) fun x hx => hrec x.value (List.mem_map.2 ⟨x, hx, rfl⟩)]
  | unordered l => simp only [layout, unorderedItems_congr' (c := c) (g := g) (hrec l.item.value (by simp [Layout.formats]))]
  | ordered l => simp only [layout, nodes_congr' (c := c) (g := g) (ref := ref) (hrec l.node.value (by simp [Layout.formats]))]
  | _ => rfl

theorem product_extend (hds : c.ds.Nodup) {input k : Nat} {dataset : List (QuadPat R)} {fs fs' : List (Value × Field R)}
    (h : FieldsExtended (fun _ f => f.Unmentioned c.ds (input + k)) fs fs') (hb : PatsBelow (input + k) dataset) (n : Nat)
    (inputs : List R) (hi : inputs.length = input)
    (hrec : ∀ e ∈ fs, ∀ g i, rec g e.2.value.layout i = rec' g e.2.value.layout i) :
    layout c rec' n g ref inputs (.product ⟨input, k, fs', dataset⟩) = layout c rec n g ref inputs (.product ⟨input, k, fs, dataset⟩) := by
  simp only [layout]
  cases hm : requiredMatch c (.discriminant ref) ((Subst.fromInputs inputs).intro k) dataset g with
  | ok σ =>
    have hd : Declared ((Subst.fromInputs inputs).intro k) (withDefaultGraph dataset g) :=
      declared_of_below hb (by simp [length_intro, Subst.fromInputs, hi])
    have hlen : σ.length = input + k := by
      rw [((requiredMatch_eq_ok c hds _ _ _ g hd σ).1 hm).1.length_eq]
      simp [length_intro, Subst.fromInputs, hi]
    rw [Out.bind_ok, Out.bind_ok, fields_extend hds (hlen ▸ h) hrec]
  | err e => rfl
  | panic => rfl
  | fuel => rfl

theorem fieldsExtended_refl {P : Value → Field R → Prop} (fs : List (Value × Field R)) : FieldsExtended P fs fs := by
  induction fs with
  | nil => exact .nil
  | cons a fs ih => exact .keep a.1 a.2 ih

theorem hydrate_extend {reg' : Registry R} (hrel : c.reg.Extended (fun k _ f => f.Unmentioned c.ds k) reg') (hreg : c.reg.Closed)
    (hcomp : c.reg.Complete) (hds : c.ds.Nodup) (n : Nat) (g : Option R) (ref : R) (hr : (c.reg ref).isSome = true) (inputs : List R) :
    hydrate { c with reg := reg' } n g ref inputs = hydrate c n g ref inputs := by
  induction n generalizing g ref inputs with
  | zero => rfl
  | succ n ih =>
    obtain ⟨l, h⟩ := Option.isSome_iff_exists.1 hr
    obtain ⟨l', h2, h3⟩ := hrel ref l h
    unfold hydrate
    dsimp only
    rw [h, h2]
    dsimp only
    rw [h3.inputCount_eq]
    split
    · rfl
    · rename_i hk
      have hi : ∀ k, l.inputCount = some k → inputs.length = k := fun k hc => by
        have hk' := hk
        simp [hc] at hk'
        omega
      have hrec : ∀ f ∈ l.formats, ∀ g i, hydrate c n g f.layout i = hydrate { c with reg := reg' } n g f.layout i :=
        fun f hf g i => (ih g f.layout (hcomp ref l h f hf) i).symm
      rw [layout_anyReg (c := c) reg']
      have hcl := hreg ref l h
      cases h3 with
      | product input k dataset hf =>
        exact product_extend hds hf hcl.1 n inputs (hi _ rfl) fun e he => hrec e.2.value (List.mem_map.2 ⟨e, he, rfl⟩)
      | refl l =>
        by_cases hp : ∃ p, l = .product p
        · obtain ⟨p, rfl⟩ := hp
          exact product_extend hds (fieldsExtended_refl _) hcl.1 n inputs (hi _ rfl)
            fun e he => hrec e.2.value (List.mem_map.2 ⟨e, he, rfl⟩)
        · exact layout_congr' hrec n inputs fun p e => hp ⟨p, e⟩

end Hydrate

namespace Derived

variable {R : Type} [DecidableEq R]

variable {c : DsCtx R} {rec rec' : Rec R} {g : Option R} {ref : R} {σ : Subst R}

theorem knowsQuad_of {pats : List (QuadPat R)}
    (h : ∀ p ∈ pats, (∀ r, p.s = .res r → c.known r = true) ∧ (∀ r, p.p = .res r → c.known r = true) ∧
      (∀ r, p.o = .res r → c.known r = true) ∧ ∀ r, p.g = some (.res r) → c.known r = true) : pats.all (knowsQuad c) = true := by
  rw [List.all_eq_true]
  intro p hp
  obtain ⟨h1, h2, h3, h4⟩ := h p hp
  have hk : ∀ x : Pattern R, (∀ r, x = .res r → c.known r = true) → knows c x = true := by
    intro x hx
    cases x with
    | var _ => rfl
    | res r => exact hx r rfl
  simp only [knowsQuad, hk _ h1, hk _ h2, hk _ h3, Bool.true_and]
  cases hg : p.g with
  | none => rfl
  | some x => exact hk x fun r hr => h4 r (by rw [hg, hr])

theorem subValue_congr' {fmt : ValueFormat R} (h : ∀ g i, i.length = fmt.input.length → rec g fmt.layout i = rec' g fmt.layout i)
    (σ : Subst R) : subValue c rec' g fmt σ = subValue c rec g fmt σ := by
  unfold subValue
  cases hi : selectInputs c fmt.input σ with
  | ok ins =>
    have hl := ((selectInputs_eq_ok c _ _ _).1 hi).2.length_eq.symm
    simp only [Out.bind_ok, h _ _ hl]
  | _ => rfl

theorem readFields_extend (hds : c.ds.Nodup) {k : Nat} (hk : k ≤ σ.length) {fs fs' : List (Value × Field R)}
    (h : FieldsExtended (fun _ f => f.Unmentioned c.ds k ∧ f.Known c) fs fs')
    (hrec : ∀ e ∈ fs, ∀ g i, i.length = e.2.value.input.length → rec g e.2.value.layout i = rec' g e.2.value.layout i) :
    ∃ T : List (Option (TypedValue R)) → List (Option (TypedValue R)),
      readFields c rec' g σ fs' = (readFields c rec g σ fs).bind (fun d => .ok (T d)) ∧
      ∀ d, unwrapFields fs' (T d) = unwrapFields fs d := by
  induction h with
  | nil => exact ⟨id, rfl, fun _ => rfl⟩
  | keep key f _ ih =>
    rw [List.forall_mem_cons] at hrec
    obtain ⟨T, h1, h2⟩ := ih hrec.2
    refine ⟨fun d => match d with
      | [] => []
      | a :: d => a :: T d, ?_, ?_⟩
    · unfold readFields
      cases uniqueMatch c (σ.intro f.intro) f.dataset g with
      | ok o =>
        simp only [Out.bind_ok]
        cases o with
        | some τ =>
          simp only [subValue_congr' (c := c) (g := g) hrec.1, h1]
          cases subValue c rec g f.value τ with
          | ok v => simp only [Out.bind_ok]; cases readFields c rec g σ _ <;> rfl
          | _ => rfl
        | none =>
          simp only [h1]
          cases readFields c rec g σ _ <;> rfl
      | _ => rfl
    · intro d
      cases d with
      | nil => simp only [unwrapFields]
      | cons a d => cases a <;> simp only [unwrapFields, h2]
  | @add key f fs fs' hp _ ih =>
    obtain ⟨T, h1, h2⟩ := ih hrec
    have hn : uniqueMatch c (σ.intro f.intro) f.dataset g = .ok none :=
      (uniqueMatch_eq_none c hds _ _ g (declared_of_below hp.1.2.1 (by simp [Hydrate.length_intro]; omega))).2
        ⟨knowsQuad_of hp.2, fun τ => not_match_of_unmentioned hp.1.2.2 _ τ g⟩
    refine ⟨fun d => none :: T d, ?_, ?_⟩
    · rw [readFields, hn, Out.bind_ok]
      simp only [h1]
      cases readFields c rec g σ fs <;> rfl
    · intro d
      rw [unwrapFields, hp.1.1, if_neg (by simp), h2]

theorem variants_congr' {vs : List (Variant R)}
    (hrec : ∀ x ∈ vs, ∀ g i, i.length = x.value.input.length → rec g x.value.layout i = rec' g x.value.layout i)
    (i : Nat) (sel : Option (TypedValue R)) : variants c rec' g ref σ i vs sel = variants c rec g ref σ i vs sel := by
  induction vs generalizing i sel with
  | nil => cases sel <;> rfl
  | cons x vs ih =>
    rw [List.forall_mem_cons] at hrec
    simp only [variants, ih hrec.2, subValue_congr' (c := c) (g := g) hrec.1]

theorem nodes_congr' {node : ItemLayout R}
    (hrec : ∀ g i, i.length = node.value.input.length → rec g node.value.layout i = rec' g node.value.layout i) (tail : R) (n : Nat)
    (head : R) : nodes c rec' g node σ tail n head = nodes c rec g node σ tail n head := by
  induction n generalizing head with
  | zero => unfold nodes; rfl
  | succ n ih =>
    unfold nodes
    simp only [ih, subValue_congr' (c := c) (g := g) hrec]

theorem sizedItems_congr' {is : List (ItemLayout R)}
    (hrec : ∀ x ∈ is, ∀ g i, i.length = x.value.input.length → rec g x.value.layout i = rec' g x.value.layout i) :
    sizedItems c rec' g σ is = sizedItems c rec g σ is := by
  induction is with
  | nil => rfl
  | cons x is ih =>
    rw [List.forall_mem_cons] at hrec
    simp only [sizedItems, ih hrec.2, subValue_congr' (c := c) (g := g) hrec.1]

theorem unorderedItems_congr' {fmt : ValueFormat R}
    (hrec : ∀ g i, i.length = fmt.input.length → rec g fmt.layout i = rec' g fmt.layout i) (n : Nat)
    (st : Matching.Stack R) : unorderedItems c rec' g fmt n st = unorderedItems c rec g fmt n st := by
  induction n generalizing st with
  | zero => rfl
  | succ n ih => simp only [unorderedItems, ih, subValue_congr' (c := c) (g := g) hrec]

theorem layout_congr' {l : Layout R}
    (hrec : ∀ f ∈ l.formats, ∀ g i, i.length = f.input.length → rec g f.layout i = rec' g f.layout i) (n : Nat) (inputs : List R)
    (hp : ∀ p, l ≠ .product p) : layout c rec' n g ref inputs l = layout c rec n g ref inputs l := by
  cases l with
  | product l => exact absurd rfl (hp l)
  | sum l => simp only [layout, variants_congr' (c := c) (g := g) (ref := ref) fun x hx => hrec x.value (List.mem_map.2 ⟨x, hx, rfl⟩)]
  | sized l => simp only [layout, sizedItems_congr' (c := c) (g := g) fun x hx => hrec x.value (List.mem_map.2 ⟨x, hx, rfl⟩)]
  | unordered l => simp only [layout, unorderedItems_congr' (c := c) (g := g) (hrec l.item.value (by simp [Layout.formats]))]
  | ordered l => simp only [layout, nodes_congr' (c := c) (g := g) (hrec l.node.value (by simp [Layout.formats]))]
  | _ => rfl

theorem product_extend (hds : c.ds.Nodup) {input k : Nat} {dataset : List (QuadPat R)} {fs fs' : List (Value × Field R)}
    (h : FieldsExtended (fun _ f => f.Unmentioned c.ds (input + k) ∧ f.Known c) fs fs') (hb : PatsBelow (input + k) dataset) (n : Nat)
    (inputs : List R) (hi : inputs.length = input)
    (hrec : ∀ e ∈ fs, ∀ g i, i.length = e.2.value.input.length → rec g e.2.value.layout i = rec' g e.2.value.layout i) :
    layout c rec' n g ref inputs (.product ⟨input, k, fs', dataset⟩) = layout c rec n g ref inputs (.product ⟨input, k, fs, dataset⟩) := by
  simp only [layout]
  cases hm : requiredMatch c ((Subst.fromInputs inputs).intro k) dataset g with
  | ok σ =>
    have hd : Declared ((Subst.fromInputs inputs).intro k) (withDefaultGraph dataset g) :=
      declared_of_below hb (by simp [Hydrate.length_intro, Subst.fromInputs, hi])
    have hlen : σ.length = input + k := by
      rw [((requiredMatch_eq_ok c hds _ _ g hd σ).1 hm).2.1.length_eq]
      simp [Hydrate.length_intro, Subst.fromInputs, hi]
    obtain ⟨T, h1, h2⟩ := readFields_extend (g := g) hds (Nat.le_of_eq hlen.symm) h hrec
    rw [Out.bind_ok, Out.bind_ok, h1]
    cases readFields c rec g σ fs with
    | ok d => simp only [Out.bind_ok, h2]
    | _ => rfl
  | err e => rfl
  | panic => rfl
  | fuel => rfl

theorem deserialize_extend {reg' : Registry R} (hrel : c.reg.Extended (fun k _ f => f.Unmentioned c.ds k ∧ f.Known c) reg')
    (hreg : c.reg.Closed) (hty : c.reg.WellTyped) (hds : c.ds.Nodup) (n : Nat) (g : Option R) (ref : R) (inputs : List R)
    (hr : ∃ l, c.reg ref = some l ∧ ∀ k, l.inputCount = some k → inputs.length = k) :
    deserialize { c with reg := reg' } n g ref inputs = deserialize c n g ref inputs := by
  induction n generalizing g ref inputs with
  | zero => rfl
  | succ n ih =>
    obtain ⟨l, h, hi⟩ := hr
    obtain ⟨l', h2, h3⟩ := hrel ref l h
    unfold deserialize
    dsimp only
    cases c.prim ref with
    | some p => rfl
    | none =>
      dsimp only
      rw [h, h2]
      dsimp only
      have hrec : ∀ f ∈ l.formats, ∀ g i, i.length = f.input.length →
          deserialize c n g f.layout i = deserialize { c with reg := reg' } n g f.layout i := by
        intro f hf g i hil
        obtain ⟨l₁, h4, h5⟩ := hty ref l h f hf
        exact (ih g f.layout i ⟨l₁, h4, fun k hk => hil.trans (h5 k hk)⟩).symm
      rw [layout_anyReg (c := c) reg']
      have hcl := hreg ref l h
      cases h3 with
      | product input k dataset hf =>
        exact product_extend hds hf hcl.1 n inputs (hi _ rfl) fun e he => hrec e.2.value (List.mem_map.2 ⟨e, he, rfl⟩)
      | refl l =>
        by_cases hp : ∃ p, l = .product p
        · obtain ⟨p, rfl⟩ := hp
          exact product_extend hds (Hydrate.fieldsExtended_refl _) hcl.1 n inputs (hi _ rfl)
            fun e he => hrec e.2.value (List.mem_map.2 ⟨e, he, rfl⟩)
        · exact layout_congr' hrec n inputs fun p e => hp ⟨p, e⟩

end Derived

end Verif
