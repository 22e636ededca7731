import Verif.DeriveSound
import Mathlib.Data.List.Perm.Basic

/-! # Derived deserialization: everything generic hydration reads is read -/

set_option linter.unusedSectionVars false
set_option linter.unusedSimpArgs false

namespace Verif

namespace Derived

variable {R : Type} [DecidableEq R] (c : DsCtx R)

/-- From some bound on, the derived code reads the value. -/
def Ev (g : Option R) (ref : R) (ins : List R) (v : TypedValue R) : Prop :=
  ∃ N, ∀ m, N ≤ m → deserialize c m g ref ins = .ok v

section known
variable (hk : ∀ r, c.known r = true)
include hk

theorem knows_all (p : Pattern R) : knows c p = true := by cases p <;> simp [knows, hk]

theorem knowsQuad_all (q : QuadPat R) : knowsQuad c q = true := by
  unfold knowsQuad
  cases q.g <;> simp [knows_all c hk]

theorem all_knowsQuad (qs : List (QuadPat R)) : qs.all (knowsQuad c) = true := by
  simp [knowsQuad_all c hk]

theorem knowsFormat_all (f : ValueFormat R) : knowsFormat c f = true := by
  unfold knowsFormat
  rcases f.graph with _ | _ | p <;> simp [knows_all c hk]

end known

theorem UpToOrder.list_of {reg : Registry R} {vs ws : List (TypedValue R)} {ref : R}
    (h : List.Forall₂ (UpToOrder reg) vs ws) : UpToOrder reg (.list vs ref) (.list ws ref) := by
  rw [List.forall₂_iff_zip] at h
  exact .list h.1 fun e he => h.2 he

theorem UpToOrder.map_of {reg : Registry R} {m m' : List (Value × TypedValue R)} {ref : R}
    (h : List.Forall₂ (fun a b => a.1 = b.1 ∧ UpToOrder reg a.2 b.2) m m') :
    UpToOrder reg (.map m ref) (.map m' ref) := by
  refine .map ?_ ?_
  · induction h with
    | nil => rfl
    | cons h1 _ ih => simp [h1.1, ih]
  · intro e he
    exact ((List.forall₂_iff_zip.1 h).2 he).2

variable (x : Xsd) (hx : DsLaws c x) (ht : DsTotal c x)

section formats
variable {M : Option R → R → List R → TypedValue R → Prop}

/-- What is known of the layout of a format. -/
def FormatTotal (M : Option R → R → List R → TypedValue R → Prop) (f : ValueFormat R) : Prop :=
  ∀ g i w, i.length = f.input.length → M g f.layout i w → ∃ v, Ev c g f.layout i v ∧ UpToOrder c.reg v w

include ht

theorem sub_total {f : ValueFormat R} (hf : FormatTotal c M f) {g : Option R} {σ : Subst R} {w : TypedValue R}
    (h : SubMeaning M g f σ w) :
    ∃ v N, (∀ m, N ≤ m → subValue c (deserialize c m) g f σ = .ok v) ∧ UpToOrder c.reg v w := by
  obtain ⟨ins, g', h1, h2, h3⟩ := h
  obtain ⟨v, ⟨N, hN⟩, hv⟩ := hf g' ins w h1.length_eq.symm h3
  exact ⟨v, N, fun m hm => (subValue_eq_ok ..).2 ⟨knowsFormat_all c ht.known f, ins, g', h1, h2, hN m hm⟩, hv⟩

theorem items_total {f : ValueFormat R} (hf : FormatTotal c M f) {g : Option R} {σs : List (Subst R)}
    {ws : List (TypedValue R)} (h : List.Forall₂ (fun τ v => SubMeaning M g f τ v) σs ws) :
    ∃ vs N, (∀ m, N ≤ m → Out.mapM' (subValue c (deserialize c m) g f) σs = .ok vs) ∧
      List.Forall₂ (UpToOrder c.reg) vs ws := by
  induction h with
  | nil => exact ⟨[], 0, fun _ _ => rfl, .nil⟩
  | cons h1 _ ih =>
    obtain ⟨v, N, hN, hv⟩ := sub_total c x ht hf h1
    obtain ⟨vs, N', hN', hvs⟩ := ih
    refine ⟨v :: vs, max N N', fun m hm => ?_, .cons hv hvs⟩
    simp [Out.mapM', hN m (by omega), hN' m (by omega), Out.bind]

theorem fields_total (hds : c.ds.Nodup) {g : Option R} {σ : Subst R} {fs : List (Value × Field R)}
    {m : List (Value × TypedValue R)} (hf : ∀ e ∈ fs, FormatTotal c M e.2.value)
    (hc : ∀ e ∈ fs, PatsBelow (σ.length + e.2.intro) e.2.dataset) (h : FieldsMeaning c.ds M g σ fs m) :
    ∃ os m' N, (∀ k, N ≤ k → readFields c (deserialize c k) g σ fs = .ok os) ∧ unwrapFields fs os = .ok m' ∧
      List.Forall₂ (fun a b => a.1 = b.1 ∧ UpToOrder c.reg a.2 b.2) m' m := by
  induction h with
  | nil => exact ⟨[], [], 0, fun _ _ => rfl, rfl, .nil⟩
  | @present key field fs' σ' w _ h1 h2 _ ih =>
    obtain ⟨v, N, hN, hv⟩ := sub_total c x ht (hf (key, field) (by simp)) h2
    obtain ⟨os, m', N', hN', hu, hm⟩ := ih (fun e he => hf e (by simp [he])) (fun e he => hc e (by simp [he]))
    refine ⟨some v :: os, (key, v) :: m', max N N', fun k hk => ?_, ?_, .cons ⟨rfl, hv⟩ hm⟩
    · have : uniqueMatch c (σ.intro field.intro) field.dataset g = .ok (some σ') :=
        (uniqueMatch_eq_some c hds _ _ _ (Hydrate.declared_ext (σ := σ) (hc (key, field) (by simp)) (Nat.le_refl _)) σ').2
          ⟨all_knowsQuad c ht.known _, h1⟩
      simp [readFields, this, hN k (by omega), hN' k (by omega), Out.bind]
    · simp [unwrapFields, hu, Out.bind]
  | @absent key field fs' _ h1 h2 _ ih =>
    obtain ⟨os, m', N', hN', hu, hm⟩ := ih (fun e he => hf e (by simp [he])) (fun e he => hc e (by simp [he]))
    refine ⟨none :: os, m', N', fun k hk => ?_, ?_, hm⟩
    · have : uniqueMatch c (σ.intro field.intro) field.dataset g = .ok none :=
        (uniqueMatch_eq_none c hds _ _ _ (Hydrate.declared_ext (σ := σ) (hc (key, field) (by simp)) (Nat.le_refl _))).2
          ⟨all_knowsQuad c ht.known _, h1⟩
      simp [readFields, this, hN' k hk, Out.bind]
    · simp [unwrapFields, hu, Out.bind, h2]

theorem sized_total (hds : c.ds.Nodup) {g : Option R} {σ : Subst R} {items : List (ItemLayout R)}
    {ws : List (TypedValue R)} (hf : ∀ e ∈ items, FormatTotal c M e.value)
    (hc : ∀ e ∈ items, PatsBelow (σ.length + e.intro) e.dataset)
    (h : List.Forall₂ (fun (item : ItemLayout R) v => ∃ σ',
        UniqueMatch c.ds (σ ++ List.replicate item.intro none) (inGraph g item.dataset) σ' ∧
        SubMeaning M g item.value σ' v) items ws) :
    ∃ vs N, (∀ k, N ≤ k → sizedItems c (deserialize c k) g σ items = .ok vs) ∧
      List.Forall₂ (UpToOrder c.reg) vs ws := by
  induction h with
  | nil => exact ⟨[], 0, fun _ _ => rfl, .nil⟩
  | @cons item _ _ _ h1 _ ih =>
    obtain ⟨σ', h1, h2⟩ := h1
    obtain ⟨v, N, hN, hv⟩ := sub_total c x ht (hf item (by simp)) h2
    obtain ⟨vs, N', hN', hvs⟩ := ih (fun e he => hf e (by simp [he])) (fun e he => hc e (by simp [he]))
    refine ⟨v :: vs, max N N', fun k hk => ?_, .cons hv hvs⟩
    have : requiredMatch c (σ.intro item.intro) item.dataset g = .ok σ' :=
      (requiredMatch_eq_ok c hds _ _ _ (Hydrate.declared_ext (σ := σ) (hc item (by simp)) (Nat.le_refl _)) σ').2
        ⟨all_knowsQuad c ht.known _, h1⟩
    simp [sizedItems, this, hN k (by omega), hN' k (by omega), Out.bind]

theorem nodes_total (hds : c.ds.Nodup) {g : Option R} {node : ItemLayout R} {σ : Subst R} {tail head : R}
    {ws : List (TypedValue R)} (hf : FormatTotal c M node.value)
    (hc : PatsBelow (σ.length + 2 + node.intro) node.dataset) (h : ChainMeaning c.ds M g node σ tail head ws) :
    ∃ vs N, (∀ k n, N ≤ k → N ≤ n → nodes c (deserialize c k) g node σ tail n head = .ok vs) ∧
      List.Forall₂ (UpToOrder c.reg) vs ws := by
  induction h with
  | nil => exact ⟨[], 0, fun _ _ _ _ => by unfold nodes; simp, .nil⟩
  | @cons head σ' w next ws h1 h2 h3 h4 _ ih =>
    obtain ⟨v, N, hN, hv⟩ := sub_total c x ht hf h3
    obtain ⟨vs, N', hN', hvs⟩ := ih
    refine ⟨v :: vs, max N N' + 1, fun k n hk hn => ?_, .cons hv hvs⟩
    obtain ⟨n, rfl⟩ : ∃ n', n = n' + 1 := ⟨n - 1, by omega⟩
    have e : (Subst.push σ (some head)).intro (1 + node.intro) =
        σ ++ [some head, none] ++ List.replicate node.intro none := by
      simp [Subst.push, Subst.intro, List.replicate_add]
    have hd : Declared ((Subst.push σ (some head)).intro (1 + node.intro)) (withDefaultGraph node.dataset g) :=
      Hydrate.declared_ext (σ := Subst.push σ (some head)) hc (by simp [Subst.push]; omega)
    have : requiredMatch c ((Subst.push σ (some head)).intro (1 + node.intro)) node.dataset g = .ok σ' :=
      (requiredMatch_eq_ok c hds _ _ _ hd σ').2 ⟨all_knowsQuad c ht.known _, by rw [e]; exact h2⟩
    unfold nodes
    simp [h1, this, hN k (by omega), h4, hN' k n (by omega) (by omega), Out.bind, Out.ofOption]

theorem variants_none (hds : c.ds.Nodup) (rec : Rec R) {g : Option R} {ref : R} {σ : Subst R} {vs : List (Variant R)}
    (hc : ∀ e ∈ vs, PatsBelow (σ.length + e.intro) e.dataset)
    (h : ∀ y ∈ vs, ∀ τ, ¬ IsMatch c.ds (σ ++ List.replicate y.intro none) (inGraph g y.dataset) τ) (i : Nat)
    (v : TypedValue R) : variants c rec g ref σ i vs (some v) = .ok v := by
  induction vs generalizing i with
  | nil => rfl
  | cons y vs ih =>
    have : uniqueMatch c (σ.intro y.intro) y.dataset g = .ok none :=
      (uniqueMatch_eq_none c hds _ _ _ (Hydrate.declared_ext (σ := σ) (hc y (by simp)) (Nat.le_refl _))).2
        ⟨all_knowsQuad c ht.known _, h y (by simp)⟩
    simp only [variants, this, Out.bind]
    exact ih (fun e he => hc e (by simp [he])) (fun e he => h e (by simp [he])) _

theorem variants_total (hds : c.ds.Nodup) {g : Option R} {ref : R} {σ : Subst R} {vs : List (Variant R)}
    (hf : ∀ e ∈ vs, FormatTotal c M e.value)
    (hc : ∀ e ∈ vs, PatsBelow (σ.length + e.intro) e.dataset) (i k : Nat) {variant : Variant R} {w : TypedValue R}
    (hk : vs[k]? = some variant) (hm : VariantMeaning c.ds M g σ variant w)
    (hu : ∀ j y τ, vs[j]? = some y → IsMatch c.ds (σ ++ List.replicate y.intro none) (inGraph g y.dataset) τ → j = k) :
    ∃ v N, (∀ m, N ≤ m → variants c (deserialize c m) g ref σ i vs none = .ok (.variant v ref (i + k))) ∧
      UpToOrder c.reg v w := by
  induction vs generalizing i k with
  | nil => simp at hk
  | cons y vs ih =>
    have hd := Hydrate.declared_ext (σ := σ) (g := g) (hc y (by simp)) (Nat.le_refl _)
    cases k with
    | zero =>
      simp only [List.getElem?_cons_zero, Option.some.injEq] at hk
      subst hk
      obtain ⟨σ', h1, h2⟩ := hm
      obtain ⟨v, N, hN, hv⟩ := sub_total c x ht (hf y (by simp)) h2
      refine ⟨v, N, fun m hm => ?_, hv⟩
      have : uniqueMatch c (σ.intro y.intro) y.dataset g = .ok (some σ') :=
        (uniqueMatch_eq_some c hds _ _ _ hd σ').2 ⟨all_knowsQuad c ht.known _, h1⟩
      simp only [variants, this, Out.bind, hN m hm, Option.isSome_none, Bool.false_eq_true, if_false]
      rw [variants_none c x ht hds _ (fun e he => hc e (by simp [he]))]
      · simp
      · intro z hz τ hτ
        obtain ⟨j, hj⟩ := List.getElem?_of_mem hz
        have := hu (j + 1) z τ (by simpa using hj) hτ
        omega
    | succ k =>
      obtain ⟨v, N, hN, hv⟩ := ih (fun e he => hf e (by simp [he])) (fun e he => hc e (by simp [he])) (i + 1) k
        (by simpa using hk) (fun j z τ hj hτ => by
          have := hu (j + 1) z τ (by simpa using hj) hτ
          omega)
      refine ⟨v, N, fun m hm => ?_, hv⟩
      have : uniqueMatch c (σ.intro y.intro) y.dataset g = .ok none :=
        (uniqueMatch_eq_none c hds _ _ _ hd).2 ⟨all_knowsQuad c ht.known _, fun τ hτ => by
          have := hu 0 y τ rfl hτ
          omega⟩
      simp only [variants, this, Out.bind, hN m hm]
      congr 2
      omega

end formats

include hx

/-- The literal read by derived code. -/
theorem data_total (hds : c.ds.Nodup) (ht : DsTotal c x) {le g ref} {inputs : List R} {l : Layout R} {d : DataLayout R}
    (hr : c.reg ref = some l) (hin : inputs.length = 1) (hd : l.datatype? = some d.datatype)
    (hcl : PatsBelow (1 + d.intro) d.dataset) {α} {parse : String → String → Out (HyError R) α} {a : α}
    (h : DataMeaning (c.toHy x le) parse g d inputs a) {lit : TypedLiteral R}
    (hp : ∀ r, ∀ s ∈ c.literalsOf r, s.type = .any (c.datatypeIri d.datatype) →
      parse s.value (c.datatypeIri d.datatype) = .ok a → c.fromLiteral ref s.value = some lit) :
    data c g ref d inputs = .ok (.literal lit) := by
  have hdt := hx.datatype _ _ _ hr hd
  rw [data_eq_ok c hds g ref d inputs (by rw [hin]; exact hcl) hx.single hdt.2]
  obtain ⟨σ, r, s, i, hu, hden, hlit, hty, hpa⟩ := h
  change List.filter (fun lit => (c.irisOf d.datatype).any fun j => lit.type == .any j) (c.literalsOf r) = [s] at hlit
  rw [hdt.1, filter_single (hx.single r)] at hlit
  have e : i = c.datatypeIri d.datatype := by
    have := hlit.2
    rw [hty] at this
    injection this
  subst e
  exact ⟨all_knowsQuad c ht.known _, knows_all c ht.known _, σ, r, s, lit, hu, hden, hlit.1, hty,
    hp r s (by rw [hlit.1]; simp) hty hpa, rfl⟩

theorem layout_total (hds : c.ds.Nodup) (ht : DsTotal c x) (le) {M : Option R → R → List R → TypedValue R → Prop} (g : Option R)
    (ref : R) (inputs : List R) (l : Layout R) (hr : c.reg ref = some l) (hprim : c.prim ref = none) (hl : l.Closed)
    (hi : ∀ k, l.inputCount = some k → inputs.length = k) (hf : ∀ f ∈ l.formats, FormatTotal c M f)
    (w : TypedValue R) (h : LayoutMeaning (c.toHy x le) M g ref inputs w l) :
    ∃ v N, (∀ m, N ≤ m → layout c (deserialize c m) m g ref inputs l = .ok v) ∧ UpToOrder c.reg v w := by
  have hreq : ∀ (k : Nat) (pats : List (QuadPat R)) m σ, PatsBelow (m + k) pats → inputs.length = m →
      UniqueMatch c.ds (inputs.map some ++ List.replicate k none) (inGraph g pats) σ →
      requiredMatch c ((Subst.fromInputs inputs).intro k) pats g = .ok σ ∧ σ.length = m + k := by
    intro k pats m σ hp hm hu
    refine ⟨(requiredMatch_eq_ok c hds _ _ _ (Hydrate.declared_ext (σ := []) hp (by simp [Subst.fromInputs, hm])) σ).2
      ⟨all_knowsQuad c ht.known _, hu⟩, ?_⟩
    rw [isMatch_length hu.1]
    simp [hm]
  have hres : ∀ (p : Pattern R) (σ : Subst R) r, p.Denotes σ.get r → resource c p σ = .ok r := fun p σ r hd =>
    (resource_eq_ok c p σ r).2 ⟨knows_all c ht.known p, hd⟩
  cases l with
  | never => exact absurd h (by simp [LayoutMeaning])
  | always => exact absurd hr (ht.noAlways ref)
  | unit l =>
    obtain ⟨⟨σ, hu⟩, rfl⟩ := h
    refine ⟨_, 0, fun m _ => ?_, .literal _⟩
    simp [layout, (hreq _ _ 1 σ hl (hi 1 rfl) hu).1, Out.bind]
  | boolean l =>
    obtain ⟨b, hb, rfl⟩ := h
    refine ⟨_, 0, fun m _ => ?_, .literal _⟩
    refine data_total c x hx hds ht hr (hi 1 rfl) rfl hl.1 hb ?_
    intro r s _ _ hp
    simp only [Hydrate.booleanValue, DsCtx.toHy, hx.boolType _ _ hr, if_true, Out.ofOption_eq_ok] at hp
    obtain ⟨lit, hlit⟩ := ht.boolean _ _ _ _ hr hp
    obtain ⟨b', hb', rfl⟩ := hx.boolean _ _ _ _ hr hlit
    rw [hp] at hb'
    injection hb' with e
    rw [hlit, e]
  | number l =>
    obtain ⟨b, hb, rfl⟩ := h
    refine ⟨_, 0, fun m _ => ?_, .literal _⟩
    refine data_total c x hx hds ht hr (hi 1 rfl) rfl hl.1 hb ?_
    intro r s hs hty hp
    simp only [Hydrate.numberValue, DsCtx.toHy, hx.numType _ _ hr, if_true, Out.ofOption_eq_ok] at hp
    have := ht.number _ _ hr r s hs hty _ hp
    simp only [DsCtx.Reads, hprim] at this
    obtain ⟨lit, hlit⟩ := this
    obtain ⟨b', hb', rfl⟩ := hx.number _ _ _ _ hr hlit
    rw [hp] at hb'
    injection hb' with e
    rw [hlit, e]
  | byteString l =>
    obtain ⟨b, ⟨_, _, _, _, -, -, -, -, hb⟩, rfl⟩ := h
    simp [Hydrate.byteStringValue] at hb
  | textString l =>
    obtain ⟨b, hb, rfl⟩ := h
    refine ⟨_, 0, fun m _ => ?_, .literal _⟩
    refine data_total c x hx hds ht hr (hi 1 rfl) rfl hl.1 hb ?_
    intro r s _ _ hp
    simp only [Hydrate.textStringValue, Out.ok.injEq] at hp
    obtain ⟨lit, hlit⟩ := ht.text _ _ s.value hr
    have := hx.text _ _ _ _ hr hlit
    rw [hlit, this, hp]
  | id l =>
    obtain ⟨σ, r, iri, hu, hden, hiri, rfl⟩ := h
    refine ⟨_, 0, fun m _ => ?_, .literal _⟩
    have hiri : c.irisOf r = [iri] := hiri
    simp [layout, (hreq _ _ 1 σ hl.1 (hi 1 rfl) hu).1, hres _ _ _ hden, Out.bind, idValue, hiri, Out.map]
  | product l =>
    obtain ⟨σ, m, hu, hm, rfl⟩ := h
    obtain ⟨h1, h2⟩ := hreq _ _ _ σ hl.1 (hi _ rfl) hu
    obtain ⟨os, m', N, hN, hun, hrel⟩ := fields_total c x ht hds
      (fun e he => hf _ (by simp only [Layout.formats, List.mem_map]; exact ⟨e, he, rfl⟩))
      (fun e he => by rw [h2]; exact (hl.2 e he).1) hm
    exact ⟨_, N, fun k hk => by simp [layout, h1, hN k hk, hun, Out.bind], UpToOrder.map_of hrel⟩
  | sized l =>
    obtain ⟨σ, ws, hu, hm, rfl⟩ := h
    obtain ⟨h1, h2⟩ := hreq _ _ _ σ hl.1 (hi _ rfl) hu
    obtain ⟨vs, N, hN, hrel⟩ := sized_total c x ht hds
      (fun e he => hf _ (by simp only [Layout.formats, List.mem_map]; exact ⟨e, he, rfl⟩))
      (fun e he => by rw [h2]; exact (hl.2 e he).1) hm
    exact ⟨_, N, fun k hk => by simp [layout, h1, hN k hk, Out.bind], UpToOrder.list_of hrel⟩
  | ordered l =>
    obtain ⟨σ, head, tail, ws, hu, hh, hta, hm, rfl⟩ := h
    obtain ⟨h1, h2⟩ := hreq _ _ _ σ hl.1 (hi _ rfl) hu
    obtain ⟨vs, N, hN, hrel⟩ := nodes_total c x ht hds (hf _ (by simp [Layout.formats]))
      (by rw [h2]; exact hl.2.2.2.1) hm
    exact ⟨_, N, fun k hk => by simp [layout, h1, hres _ _ _ hh, hres _ _ _ hta, hN k k hk hk, Out.bind],
      UpToOrder.list_of hrel⟩
  | unordered l =>
    obtain ⟨σ, ms, values, items, hu, hnd, hmem, hvals, hperm, -, rfl⟩ := h
    obtain ⟨h1, h2⟩ := hreq _ _ _ σ hl.1 (hi _ rfl) hu
    obtain ⟨ms', h3, h4, h5⟩ := exists_matchings c hds (deserialize c 0) g l.item σ
      (Hydrate.declared_ext (σ := σ) hl.2.1 (by rw [h2]))
    have hp : ms'.Perm ms := (List.perm_ext_iff_of_nodup h3 hnd).2 fun τ => by rw [h4, hmem]; rfl
    obtain ⟨values', h6, h7⟩ := List.perm_comp_forall₂ hp hvals
    obtain ⟨vs, N, hN, hrel⟩ := items_total c x ht (hf _ (by simp [Layout.formats])) h6
    obtain ⟨vs', h8, h9⟩ := List.perm_comp_forall₂ (hperm.trans h7.symm) hrel.flip
    refine ⟨.list vs ref, N, fun k hk => ?_, ?_⟩
    · simp [layout, h1, (patterns_eq_ok c _ _).2 ⟨all_knowsQuad c ht.known l.item.dataset, rfl⟩, Out.bind, h5, hN k hk]
    · have h8 : List.Forall₂ (UpToOrder c.reg) vs' items := h8.flip
      rw [List.forall₂_iff_zip] at h8
      exact .set hr h9 h8.1 fun e he => h8.2 he
  | sum l =>
    obtain ⟨σ, i, variant, w', hu, -, hi', hm, -, rfl⟩ := h
    obtain ⟨h1, h2⟩ := hreq _ _ _ σ hl.1 (hi _ rfl) hu
    obtain ⟨v, N, hN, hrel⟩ := variants_total c x ht hds (ref := ref)
      (fun e he => hf _ (by simp only [Layout.formats, List.mem_map]; exact ⟨e, he, rfl⟩))
      (fun e he => by rw [h2]; exact (hl.2 e he).1) 0 i hi' hm (by
        intro j y τ hj hτ
        obtain ⟨σ', h3, -⟩ := hm
        exact ht.discriminated _ _ hr g inputs σ τ σ' j i y variant (hi _ rfl) hu hj hi' hτ h3.1)
    refine ⟨_, N, fun k hk => ?_, .variant hrel⟩
    simp only [layout, h1, Out.bind, hN k hk, Nat.zero_add]

theorem uniqueMatch_nil_eq {ds : List (Quad R)} {σ τ : Subst R} (h : UniqueMatch ds σ [] τ) : τ = σ :=
  ((uniqueMatch_nil ds σ).2 τ h.1)

theorem prim_total (ht : DsTotal c x) (le) (M) (g : Option R) (ref : R) (p : Prim) (l : Layout R)
    (hr : c.reg ref = some l) (hpr : c.prim ref = some p) (hp : p.Describes c l) (r : R) (w : TypedValue R)
    (h : LayoutMeaning (c.toHy x le) M g ref [r] w l) :
    ∃ lit, primValue c ref r p = .ok lit ∧ w = .literal lit := by
  have hden : ∀ {σ : Subst R} {r' : R}, UniqueMatch c.ds ([r].map some ++ List.replicate 0 none) (inGraph g []) σ →
      (Pattern.var 0).Denotes σ.get r' → r' = r := by
    intro σ r' hu hd
    have := uniqueMatch_nil_eq c x hx hu
    subst this
    have hd : Subst.get [some r] 0 = some r' := hd
    simpa [Subst.get] using hd.symm
  cases p with
  | id =>
    simp only [Prim.Describes] at hp
    subst hp
    obtain ⟨σ, r', iri, hu, hd, hiri, rfl⟩ := h
    have := hden hu hd
    subst this
    have hiri : c.irisOf r' = [iri] := hiri
    exact ⟨_, by simp only [primValue, primId, hiri, Out.map], rfl⟩
  | string =>
    obtain ⟨d, rfl, hd⟩ := hp
    have hdt := hx.datatype _ _ _ hr rfl
    obtain ⟨s, ⟨σ, r', lit, i, hu, hd', hlit, hty, hpa⟩, rfl⟩ := h
    have := hden hu hd'
    subst this
    change List.filter (fun lit => (c.irisOf d).any fun j => lit.type == .any j) (c.literalsOf r') = [lit] at hlit
    rw [show c.irisOf d = _ from hdt.1, filter_single (hx.single r')] at hlit
    simp only [Hydrate.textStringValue, Out.ok.injEq] at hpa
    have : primString (c.literalsOf r') = .ok s :=
      (primString_single _ (hx.single r') s).2 ⟨lit, hlit.1, by rw [hlit.2]; exact congrArg _ hd, hpa⟩
    exact ⟨_, by simp only [primValue, this]; rfl, rfl⟩
  | int dt lo hi =>
    obtain ⟨d, rfl, hd⟩ := hp
    have hdt := hx.datatype _ _ _ hr rfl
    obtain ⟨q, ⟨σ, r', lit, i, hu, hd', hlit, hty, hpa⟩, rfl⟩ := h
    have := hden hu hd'
    subst this
    change List.filter (fun lit => (c.irisOf d).any fun j => lit.type == .any j) (c.literalsOf r') = [lit] at hlit
    rw [show c.irisOf d = _ from hdt.1, filter_single (hx.single r')] at hlit
    have e : i = c.datatypeIri d := by
      have := hlit.2
      rw [hty] at this
      injection this
    subst e
    have hnum : x.isDecimal (c.datatypeIri d) = true := hx.numType _ _ hr
    simp only [Hydrate.numberValue, DsCtx.toHy, hnum, if_true, Out.ofOption_eq_ok] at hpa
    have := ht.number _ _ hr r' lit (by rw [hlit.1]; simp) hty _ hpa
    simp only [DsCtx.Reads, hpr] at this
    obtain ⟨z, hz, h1, h2⟩ := this
    have hq := hx.int _ _ hz
    rw [hpa] at hq
    injection hq with hq
    have hs : scanInt (parseRange c lo hi) dt (c.literalsOf r') none = .ok (some z) := by
      rw [scanInt_single _ _ _ (hx.single r')]
      refine ⟨lit, hlit.1, by rw [hty]; exact congrArg _ hd, ?_⟩
      simp [parseRange, hz, Option.filter, h1, h2]
    refine ⟨.number q ref, ?_, rfl⟩
    simp only [primValue, hs, Out.bind]
    rw [hq]
    rfl

/-- Everything generic hydration means is read by derived code, up to the order of unordered lists. -/
theorem meaning_deserialize (hreg : c.reg.Closed) (hds : c.ds.Nodup) (ht : DsTotal c x) (le) (n : Nat) (g : Option R)
    (ref : R) (inputs : List R) (w : TypedValue R) (h : Meaning (c.toHy x le) n g ref inputs w) :
    ∃ v, Ev c g ref inputs v ∧ UpToOrder c.reg v w := by
  induction n generalizing g ref inputs w with
  | zero => exact absurd h (by simp [Meaning])
  | succ n ih =>
    obtain ⟨l, hr, hi, hm⟩ := h
    have hr : c.reg ref = some l := hr
    cases hp : c.prim ref with
    | none =>
      obtain ⟨v, N, hN, hv⟩ := layout_total c x hx hds ht le g ref inputs l hr hp (hreg _ _ hr) hi
        (fun f _ g i w _ hM => ih g f.layout i w hM) w hm
      refine ⟨v, ⟨N + 1, fun m hm => ?_⟩, hv⟩
      obtain ⟨m, rfl⟩ : ∃ m', m = m' + 1 := ⟨m - 1, by omega⟩
      simp only [deserialize, hp, hr]
      exact hN m (by omega)
    | some p =>
      obtain ⟨l', hr', hd⟩ := hx.prim _ _ hp
      rw [hr] at hr'
      injection hr' with e
      subst e
      have h1 := hi 1 (describes_inputCount c hd)
      obtain ⟨r, rfl⟩ := List.length_eq_one_iff.1 h1
      obtain ⟨lit, h2, rfl⟩ := prim_total c x hx ht le _ g ref p l hr hp hd r w hm
      refine ⟨_, ⟨1, fun m hm => ?_⟩, .literal lit⟩
      obtain ⟨m, rfl⟩ : ∃ m', m = m' + 1 := ⟨m - 1, by omega⟩
      simp [deserialize, hp, Out.ofOption, Out.bind, h2, Out.map]

end Derived

end Verif
