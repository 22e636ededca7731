import Verif.DeriveSound
import Verif.DeriveTotal
import Verif.DeriveOrder
import Verif.DeriveSim
import Verif.RoundTripSpec
import Verif.Props.RoundTrip
import Verif.Props.Hydrate
import Mathlib.Order.Extension.Linear

/-!
# From derived serialization to derived deserialization

`save` is what a program has to do around a derived `serialize_ld_with` to obtain a dataset of terms. `same_of_upToOrder`
composes the two equivalences of trees, `SameTree` and `UpToOrder`.
-/

set_option linter.unusedSectionVars false
set_option linter.unusedSimpArgs false

namespace Verif

/-- There is a total order on every type. -/
theorem exists_totalOrder (α : Type) : ∃ le : α → α → Bool, TotalOrder le := by
  classical
  haveI : IsPartialOrder α Eq := { refl := fun _ => rfl, trans := fun _ _ _ => Eq.trans, antisymm := fun _ _ h _ => h }
  obtain ⟨s, hs, -⟩ := extend_partialOrder (α := α) (r := Eq)
  refine ⟨fun a b => decide (s a b), ⟨?_, ?_, ?_⟩⟩
  · intro a b; simpa using hs.total a b
  · intro a b c; simpa using hs.trans a b c
  · intro a b; simpa using hs.antisymm a b

namespace Derived

open Dehydrate

/-- What a program does with a derived serializer to write a dataset of terms: resources are made for the inputs, the
value is serialized, and the resources are then replaced by terms as `dehydrate` does
(`layouts/src/distill/de/mod.rs` L269-507, whose last part this shares). The runtime has no such function. -/
def save (c : SeCtx) (n : Nat) (v : TypedValue Term) (ref : Term) (o : DeOptions) :
    Out DeError (List (Quad Term) × List Term) :=
  match c.reg ref with
  | none => .err (.layoutNotFound ref)
  | some l =>
    let count := l.inputCount.getD (o.inputCount.getD 1)
    match serialize c n v none ref ((List.range count).map .input) ⟨[], [], 0⟩ with
    | (.ok _, s) =>
      if ambiguous s.terms then .err .termAmbiguity
      else
        let (quads, st) := mapQuads o (o.order s.out) (initialMap s.terms, 0)
        let (values, _) := mapInputs o (List.range count) st
        .ok (toSet quads, values)
    | (.err e, _) => .err e
    | (.panic, _) => .panic
    | (.fuel, _) => .fuel

theorem save_eq (c : SeCtx) (x : Xsd) (hl : SeLaws c) (ht : SeText c x) (hreg : c.reg.Closed)
    (hwt : c.reg.WellTyped) (hk : c.reg.DistinctKeys) (hns : ∀ ref l, c.reg ref ≠ some (.sum l)) (n : Nat)
    (ref : Term) (v : TypedValue Term) (hv : HasType c.reg ref v) (hid : AllIds (fun s => c.isIri s = true) v)
    (hpr : v.untype.Printable x) (o : DeOptions) :
    save c n v ref o = dehydrate ⟨c.reg, c.isIri, x⟩ n v.untype ref o := by
  unfold save dehydrate
  cases hr : c.reg ref with
  | none => simp only [hr]
  | some l =>
    simp only [hr]
    rw [serialize_agree c x hl ht hreg hwt hk hns n ref v hv hid hpr]
    · rfl
    · intro l' k hl' hk'
      rw [hr] at hl'
      injection hl' with e
      subst e
      simp [hk']

/-- With enumerations, `save` is `dehydrate` for another order of the quads. -/
theorem save_sim (c : SeCtx) (x : Xsd) (hl : SeLaws c) (ht : SeText c x) (hreg : c.reg.Closed)
    (hwt : c.reg.WellTyped) (hk : c.reg.DistinctKeys) (n : Nat)
    (ref : Term) (v : TypedValue Term) (hv : HasType c.reg ref v) (hdec : Decided c.reg v)
    (hid : AllIds (fun s => c.isIri s = true) v)
    (hpr : v.untype.Printable x) (o : DeOptions) (hord : ∀ l, (o.order l).Perm l) :
    ∃ order : List (Quad IRes) → List (Quad IRes), (∀ l, (order l).Perm l) ∧
      save c n v ref o = dehydrate ⟨c.reg, c.isIri, x⟩ n v.untype ref { o with order := order } := by
  unfold save dehydrate
  cases hr : c.reg ref with
  | none => exact ⟨o.order, hord, by simp only [hr]⟩
  | some l =>
    have := serialize_sim c x hl ht hreg hwt hk n ref v hv hdec hid hpr none
      ((List.range (l.inputCount.getD (o.inputCount.getD 1))).map .input) (by
        intro l' k hl' hk'
        rw [hr] at hl'
        injection hl' with e
        subst e
        simp [hk']) [] ⟨[], [], 0⟩ ⟨[], [], 0⟩ (.refl List.nodup_nil)
    simp only [hr]
    generalize serialize c n v none ref ((List.range (l.inputCount.getD (o.inputCount.getD 1))).map .input) ⟨[], [], 0⟩ = a
      at this ⊢
    generalize dehydrateWith ⟨c.reg, c.isIri, x⟩ n v.untype none ref
      ((List.range (l.inputCount.getD (o.inputCount.getD 1))).map .input) ⟨[], [], 0⟩ = b at this ⊢
    cases this with
    | fuel => exact ⟨o.order, hord, rfl⟩
    | @ok _ s s' hn =>
      refine ⟨fun l => if l = s'.out then o.order s.out else o.order l, fun l => ?_, ?_⟩
      · by_cases h : l = s'.out
        · simp only [h, if_true]
          exact (hord _).trans hn.perm
        · simp only [h, if_false]
          exact hord l
      · have hq : ∀ (order : List (Quad IRes) → List (Quad IRes)) l st,
            mapQuads { o with order := order } l st = mapQuads o l st := by
          intro order l
          induction l with
          | nil => intro st; rfl
          | cons q qs ih =>
            intro st
            simp only [mapQuads, ih]
            rfl
        have hi : ∀ (order : List (Quad IRes) → List (Quad IRes)) l st,
            mapInputs { o with order := order } l st = mapInputs o l st := by
          intro order l
          induction l with
          | nil => intro st; rfl
          | cons q qs ih =>
            intro st
            simp only [mapInputs, ih]
            rfl
        simp only [hn.terms, if_true, hq, hi]

/-! ## Trees -/

/-- The values of a type have sorted keys when those of the layouts are. -/
theorem HasType.sorted {reg : Registry Term} (hs : reg.Sorted) (hu : ∀ ref l, reg ref = some (.unit l) → l.const.Sorted)
    {ref : Term} {v : TypedValue Term} (h : HasType reg ref v) : v.untype.Sorted := by
  induction h with
  | @unit ref l hr => exact hu _ _ hr
  | boolean => exact .literal _
  | number => exact .literal _
  | textString => exact .literal _
  | id => exact .literal _
  | @product ref l m hr h1 h2 h3 ih =>
    refine .map _ ?_ ?_
    · rw [TypedValue.untypeMap_eq]
      unfold SortedKeys
      rw [List.map_map]
      exact (hs _ _ hr).sublist h1
    · rw [TypedValue.untypeMap_eq]
      intro e he
      obtain ⟨e', he', rfl⟩ := List.mem_map.1 he
      obtain ⟨f, hf⟩ := List.mem_map.1 (h1.subset (List.mem_map.2 ⟨e', he', rfl⟩))
      exact (ih e'.1 e'.2 f.2 he' (by rw [← hf.2]; exact hf.1))
  | @unordered ref l vs hr _ ih =>
    refine .list _ ?_
    rw [TypedValue.untypeList_eq]
    intro e he
    obtain ⟨e', he', rfl⟩ := List.mem_map.1 he
    exact (ih e' he')
  | @ordered ref l vs hr _ ih =>
    refine .list _ ?_
    rw [TypedValue.untypeList_eq]
    intro e he
    obtain ⟨e', he', rfl⟩ := List.mem_map.1 he
    exact (ih e' he')
  | @sized ref l vs hr hlen _ ih =>
    refine .list _ ?_
    rw [TypedValue.untypeList_eq]
    intro e he
    obtain ⟨e', he', rfl⟩ := List.mem_map.1 he
    obtain ⟨i, hi, rfl⟩ := List.mem_iff_getElem.1 he'
    refine ih (l.items[i]'(by omega), vs[i]) ?_
    rw [List.mem_iff_getElem]
    exact ⟨i, by simp; omega, by simp⟩
  | sum i y v hr _ _ ih => exact ih

theorem sameTree_set {R : Type} {reg : Registry R} {ref : R} {l : UnorderedLayout R} (hr : reg ref = some (.unordered l))
    {vs ws : List Value} (h1 : ∀ v ∈ vs, ∃ w ∈ ws, SameTree reg l.item.value.layout v w)
    (h2 : ∀ w ∈ ws, ∃ v ∈ vs, SameTree reg l.item.value.layout v w) : SameTree reg ref (.list vs) (.list ws) := by
  classical
  refine .unordered vs ws (fun v => if h : v ∈ vs then (h1 v h).choose else v)
    (fun w => if h : w ∈ ws then (h2 w h).choose else w) hr ?_ ?_ ?_ ?_
  · intro v hv; simp only [hv, dif_pos]; exact (h1 v hv).choose_spec.1
  · intro v hv; simp only [hv, dif_pos]; exact (h1 v hv).choose_spec.2
  · intro v hv; simp only [hv, dif_pos]; exact (h2 v hv).choose_spec.1
  · intro v hv; simp only [hv, dif_pos]; exact (h2 v hv).choose_spec.2

theorem Sorted.nodup {m : List (Value × Value)} (h : (Value.map m).Sorted) : (m.map Prod.fst).Nodup := by
  cases h with
  | map _ h _ => exact List.Pairwise.imp (fun h => h.2) h

theorem eq_of_key {α : Type} {m : List (Value × α)} (hn : (m.map Prod.fst).Nodup) {k : Value} {v w : α} (h1 : (k, v) ∈ m)
    (h2 : (k, w) ∈ m) : v = w := by
  have := List.inj_on_of_nodup_map hn h1 h2 rfl
  simpa using this

/-- The layout of a type does not reject the values of the type. -/
theorem HasType.not_rejects {reg : Registry Term} {ref : Term} {v : TypedValue Term} (h : HasType reg ref v) {l : Layout Term}
    (hl : reg ref = some l) : l.rejects v.untype = false := by
  cases h with
  | unit hr => rw [hr] at hl; injection hl with e; subst e; simp [Layout.rejects, TypedValue.untype, TypedLiteral.untype]
  | boolean _ hr => rw [hr] at hl; injection hl with e; subst e; rfl
  | number _ hr => rw [hr] at hl; injection hl with e; subst e; rfl
  | textString _ hr => rw [hr] at hl; injection hl with e; subst e; rfl
  | id _ hr => rw [hr] at hl; injection hl with e; subst e; rfl
  | @product _ l' m hr h1 _ _ =>
    rw [hr] at hl; injection hl with e; subst e
    cases m with
    | nil => rfl
    | cons e m =>
      obtain ⟨k, w⟩ := e
      obtain ⟨f, hf, hk⟩ := List.mem_map.1 (h1.subset (List.mem_cons_self ..))
      simp only [TypedValue.untype, TypedValue.untypeMap, Layout.rejects, Bool.and_eq_false_iff, decide_eq_false_iff_not]
      right
      intro h
      exact h f hf hk
  | unordered _ hr => rw [hr] at hl; injection hl with e; subst e; rfl
  | ordered _ hr => rw [hr] at hl; injection hl with e; subst e; rfl
  | sized _ hr => rw [hr] at hl; injection hl with e; subst e; rfl
  | sum _ _ _ hr => rw [hr] at hl; injection hl with e; subst e; rfl

/-- Nor does it reject a tree annotated with it. -/
theorem Annotated.not_rejects {reg : Registry Term} {isIri : String → Bool} {ref : Term} {v : TypedValue Term}
    (h : Annotated reg isIri ref v) {l : Layout Term} (hl : reg ref = some l) : l.rejects v.untype = false := by
  cases h with
  | unit hr => rw [hr] at hl; injection hl with e; subst e; simp [Layout.rejects, TypedValue.untype, TypedLiteral.untype]
  | boolean _ hr => rw [hr] at hl; injection hl with e; subst e; rfl
  | number _ hr => rw [hr] at hl; injection hl with e; subst e; rfl
  | byteString _ hr => rw [hr] at hl; injection hl with e; subst e; rfl
  | textString _ hr => rw [hr] at hl; injection hl with e; subst e; rfl
  | id _ hr => rw [hr] at hl; injection hl with e; subst e; rfl
  | @product _ l' m hr h1 _ _ =>
    rw [hr] at hl; injection hl with e; subst e
    cases m with
    | nil => rfl
    | cons e m =>
      obtain ⟨k, w⟩ := e
      obtain ⟨f, hf⟩ := h1 k w (List.mem_cons_self ..)
      simp only [TypedValue.untype, TypedValue.untypeMap, Layout.rejects, Bool.and_eq_false_iff, decide_eq_false_iff_not]
      right
      intro h
      exact h _ hf rfl
  | unordered _ hr => rw [hr] at hl; injection hl with e; subst e; rfl
  | ordered _ hr => rw [hr] at hl; injection hl with e; subst e; rfl
  | sized _ hr => rw [hr] at hl; injection hl with e; subst e; rfl
  | sum _ _ _ hr => rw [hr] at hl; injection hl with e; subst e; rfl
  | always _ hr => rw [hr] at hl; injection hl with e; subst e; rfl

/-- Trees that the layout rejects are only equivalent to themselves. -/
theorem eq_of_rejects {reg : Registry Term} {ref : Term} {a b : Value} (h : SameTree reg ref a b) {l : Layout Term}
    (hl : reg ref = some l) (hr : l.rejects a = true) : a = b := by
  cases h with
  | leaf => rfl
  | product m m' hr' h1 h2 _ =>
    rw [hr'] at hl; injection hl with e; subst e
    cases m with
    | nil => simp [Layout.rejects] at hr
    | cons e m =>
      obtain ⟨k, w⟩ := e
      obtain ⟨f, hf⟩ := h2 k w (List.mem_cons_self ..)
      simp only [Layout.rejects, Bool.and_eq_true, decide_eq_true_eq] at hr
      exact absurd rfl (hr.2 _ hf)
  | unordered _ _ _ _ hr' => rw [hr'] at hl; injection hl with e; subst e; simp [Layout.rejects] at hr
  | ordered _ _ hr' => rw [hr'] at hl; injection hl with e; subst e; simp [Layout.rejects] at hr
  | sized _ _ hr' => rw [hr'] at hl; injection hl with e; subst e; simp [Layout.rejects] at hr
  | sum _ _ hr' => rw [hr'] at hl; injection hl with e; subst e; simp [Layout.rejects] at hr

/-- Whether a layout rejects a tree is seen at its root, except for constants. -/
theorem rejects_same {reg : Registry Term} {ref : Term} {a b : Value} (h : SameTree reg ref a b) {l : Layout Term}
    (hr : l.rejects a = true) : l.rejects b = true ∨ ∃ u, l = .unit u := by
  by_cases hu : ∃ u, l = .unit u
  · exact .inr hu
  · left
    induction h with
    | leaf => exact hr
    | @product ref l' m m' _ hkeys _ _ _ =>
      cases m with
      | nil =>
        cases m' with
        | nil => exact hr
        | cons => simp at hkeys
      | cons e m =>
        cases m' with
        | nil => simp at hkeys
        | cons e' m' =>
          obtain ⟨k, w⟩ := e
          obtain ⟨k', w'⟩ := e'
          simp only [List.map_cons, List.cons.injEq] at hkeys
          obtain ⟨rfl, _⟩ := hkeys
          cases l <;> first | exact absurd ⟨_, rfl⟩ hu | exact hr
    | unordered => cases l <;> first | exact absurd ⟨_, rfl⟩ hu | exact hr
    | ordered => cases l <;> first | exact absurd ⟨_, rfl⟩ hu | exact hr
    | sized => cases l <;> first | exact absurd ⟨_, rfl⟩ hu | exact hr
    | sum _ _ _ _ _ ih => exact ih hr

/-- Values that can be read back are decided. -/
theorem decided_of_recoverable {reg : Registry Term} {x : Xsd} {ref : Term} {v : TypedValue Term} (h : HasType reg ref v)
    (ht : TreeLayouts reg x ref) (hr : Recoverable reg ref v.untype) : Decided reg v := by
  have hstep : ∀ {ref l f}, TreeLayouts reg x ref → reg ref = some l → f ∈ l.formats → TreeLayouts reg x f.layout := by
    intro ref l f ht hl hf ref' hre
    refine ht ref' ?_
    induction hre with
    | refl => exact .step (.refl _) hl hf
    | step _ h1 h2 ih => exact .step ih h1 h2
  induction h with
  | unit => exact .literal _
  | boolean => exact .literal _
  | number => exact .literal _
  | textString => exact .literal _
  | id => exact .literal _
  | @product ref l m hl h1 h2 h3 ih =>
    refine .map fun e he => ?_
    obtain ⟨f, hf, hk⟩ := List.mem_map.1 (h1.subset (List.mem_map.2 ⟨e, he, rfl⟩))
    have hf' : (e.1, f.2) ∈ l.fields := by rw [← hk]; exact hf
    refine ih e.1 e.2 f.2 he hf' (hstep ht hl (by simp only [Layout.formats, List.mem_map]; exact ⟨_, hf', rfl⟩)) ?_
    simp only [TypedValue.untype] at hr
    cases hr with
    | leaf _ h =>
      have := h _ hl
      simp only [Layout.formats, List.map_eq_nil_iff] at this
      rw [this] at hf
      simp at hf
    | product _ hl' h =>
      rw [hl] at hl'; injection hl' with e'; injection e' with e'; subst e'
      refine h e.1 _ f.2 ?_ hf'
      rw [TypedValue.untypeMap_eq]
      exact List.mem_map.2 ⟨e, he, rfl⟩
    | sum _ _ _ _ hl' => rw [hl] at hl'; simp at hl'
  | @unordered ref l vs hl h1 ih =>
    refine .list fun w hw => ih w hw (hstep ht hl (by simp [Layout.formats])) ?_
    simp only [TypedValue.untype] at hr
    cases hr with
    | leaf _ h => simpa [Layout.formats] using h _ hl
    | unordered _ hl' h =>
      rw [hl] at hl'; injection hl' with e'; injection e' with e'; subst e'
      exact h _ (by rw [TypedValue.untypeList_eq]; exact List.mem_map.2 ⟨w, hw, rfl⟩)
    | ordered _ hl' => rw [hl] at hl'; simp at hl'
    | sized _ hl' => rw [hl] at hl'; simp at hl'
    | sum _ _ _ _ hl' => rw [hl] at hl'; simp at hl'
  | @ordered ref l vs hl h1 ih =>
    refine .list fun w hw => ih w hw (hstep ht hl (by simp [Layout.formats])) ?_
    simp only [TypedValue.untype] at hr
    cases hr with
    | leaf _ h => simpa [Layout.formats] using h _ hl
    | ordered _ hl' _ h =>
      rw [hl] at hl'; injection hl' with e'; injection e' with e'; subst e'
      exact h _ (by rw [TypedValue.untypeList_eq]; exact List.mem_map.2 ⟨w, hw, rfl⟩)
    | unordered _ hl' => rw [hl] at hl'; simp at hl'
    | sized _ hl' => rw [hl] at hl'; simp at hl'
    | sum _ _ _ _ hl' => rw [hl] at hl'; simp at hl'
  | @sized ref l vs hl hlen h1 ih =>
    refine .list fun w hw => ?_
    obtain ⟨i, hi, rfl⟩ := List.mem_iff_getElem.1 hw
    have hz : (l.items[i]'(by omega), vs[i]) ∈ l.items.zip vs := by
      rw [List.mem_iff_getElem]; exact ⟨i, by simp; omega, by simp⟩
    refine ih _ hz (hstep ht hl (by
      simp only [Layout.formats, List.mem_map]; exact ⟨_, (List.of_mem_zip hz).1, rfl⟩)) ?_
    simp only [TypedValue.untype] at hr
    cases hr with
    | leaf _ h =>
      have := h _ hl
      simp only [Layout.formats, List.map_eq_nil_iff] at this
      have := congrArg List.length this
      simp only [List.length_nil] at this
      omega
    | sized _ hl' h =>
      rw [hl] at hl'; injection hl' with e'; injection e' with e'; subst e'
      refine h (l.items[i]'(by omega), vs[i].untype) ?_
      rw [TypedValue.untypeList_eq, List.mem_iff_getElem]
      exact ⟨i, by simp; omega, by simp⟩
    | unordered _ hl' => rw [hl] at hl'; simp at hl'
    | ordered _ hl' => rw [hl] at hl'; simp at hl'
    | sum _ _ _ _ hl' => rw [hl] at hl'; simp at hl'
  | @sum ref l i y w hl hy hw ih =>
    have hym := List.mem_of_getElem? hy
    have hyf : y.value ∈ (Layout.sum l).formats := by simp only [Layout.formats, List.mem_map]; exact ⟨_, hym, rfl⟩
    change Recoverable reg ref w.untype at hr
    have hmis : ∀ {l' : Layout Term}, reg ref = some l' → l' = .sum l := by
      intro l' h; rw [hl] at h; injection h with h; exact h.symm
    generalize hv : w.untype = v at hr
    cases hr with
    | leaf _ h =>
      have := h _ hl
      simp only [Layout.formats, List.map_eq_nil_iff] at this
      rw [this] at hym
      simp at hym
    | product _ hl' => exact absurd (hmis hl') (by simp)
    | unordered _ hl' => exact absurd (hmis hl') (by simp)
    | ordered _ hl' => exact absurd (hmis hl') (by simp)
    | sized _ hl' => exact absurd (hmis hl') (by simp)
    | @sum _ l' _ before z after hl' hsp hrej hrz =>
      have := hmis hl'
      injection this with this
      subst this
      have hi : i = before.length := by
        by_contra hi
        have hyo : y ∈ before ++ after := by
          rw [hsp] at hy
          rcases Nat.lt_or_ge i before.length with h | h
          · rw [List.getElem?_append_left h] at hy
            exact List.mem_append_left _ (List.mem_of_getElem? hy)
          · rw [List.getElem?_append_right h] at hy
            obtain ⟨k, hk⟩ : ∃ k, i - before.length = k + 1 := ⟨i - before.length - 1, by omega⟩
            rw [hk, List.getElem?_cons_succ] at hy
            exact List.mem_append_right _ (List.mem_of_getElem? hy)
        obtain ⟨l'', h1, h2⟩ := hrej y hyo
        rw [← hv, HasType.not_rejects hw h1] at h2
        simp at h2
      have hyz : y = z := by
        rw [hsp, hi, List.getElem?_append_right (Nat.le_refl _)] at hy
        simpa using hy.symm
      subst hyz
      obtain ⟨l'', h1, htr⟩ := ht ref (.refl _)
      have := hmis h1
      subst this
      refine .variant ?_ (ih (hstep ht hl hyf) (by rw [hv]; exact hrz))
      intro l2 hl2 j u hj hu
      have := hmis hl2
      injection this with this
      subst this
      have huo : u ∈ before ++ after := by
        rw [hsp] at hu
        rcases Nat.lt_or_ge j before.length with h | h
        · rw [List.getElem?_append_left h] at hu
          exact List.mem_append_left _ (List.mem_of_getElem? hu)
        · rw [List.getElem?_append_right h] at hu
          obtain ⟨k, hk⟩ : ∃ k, j - before.length = k + 1 := ⟨j - before.length - 1, by omega⟩
          rw [hk, List.getElem?_cons_succ] at hu
          exact List.mem_append_right _ (List.mem_of_getElem? hu)
      have hum := List.mem_of_getElem? hu
      obtain ⟨l3, h3, h4⟩ := hrej u huo
      refine ⟨(htr.variants u hum).1, l3, h3, by rw [hv]; exact h4, ?_⟩
      rintro p rfl
      obtain ⟨l4, h5, h6⟩ := ht u.value.layout (.step (.refl _) hl (by
        simp only [Layout.formats, List.mem_map]; exact ⟨_, hum, rfl⟩))
      rw [h3] at h5
      injection h5 with h5
      subst h5
      exact h6.intro

/-- A tree equivalent to a hydrated one is equivalent to what was hydrated. -/
theorem same_of_upToOrder {reg : Registry Term} {isIri : String → Bool}
    {b d : TypedValue Term} (h : UpToOrder reg d b) (ref : Term) (a : Value) (ha : a.Sorted) (hb : Annotated reg isIri ref b)
    (hrec : Recoverable reg ref a) (hs : SameTree reg ref a b.untype) : SameTree reg ref a d.untype := by
  induction h generalizing ref a with
  | literal l => exact hs
  | always v => exact hs
  | @variant d' b' r i hdb ih => cases hb with
    | @sum _ l y _ _ hr hy hby =>
      have hym := List.mem_of_getElem? hy
      change SameTree reg r a b'.untype at hs
      change SameTree reg r a d'.untype
      have hmis : ∀ {l' : Layout Term}, reg r = some l' → l' = .sum l := by
        intro l' h; rw [hr] at h; injection h with h; exact h.symm
      obtain ⟨z0, hcases, hrz⟩ : ∃ z0, (∀ u ∈ l.variants, u = z0 ∨ ∃ lu, reg u.value.layout = some lu ∧
          lu.rejects a = true) ∧ Recoverable reg z0.value.layout a := by
        rcases RoundTrip.recoverable_sum hr hrec with h | ⟨before, z, after, hsp, hrej, hrz⟩
        · rw [h] at hym; simp at hym
        · refine ⟨z, fun u hu => ?_, hrz⟩
          rw [hsp] at hu
          rcases List.mem_append.1 hu with h | h
          · exact .inr (hrej u (List.mem_append_left _ h))
          · rcases List.mem_cons.1 h with rfl | h
            · exact .inl rfl
            · exact .inr (hrej u (List.mem_append_right _ h))
      have hsz : a = b'.untype ∨ ∃ z ∈ l.variants, SameTree reg z.value.layout a b'.untype := by
        generalize hv : b'.untype = b at hs
        cases hs with
        | leaf => exact .inl rfl
        | product _ _ hl' => exact absurd (hmis hl') (by simp)
        | unordered _ _ _ _ hl' => exact absurd (hmis hl') (by simp)
        | ordered _ _ hl' => exact absurd (hmis hl') (by simp)
        | sized _ _ hl' => exact absurd (hmis hl') (by simp)
        | @sum _ l' z _ _ hl' hz hsz =>
          have := hmis hl'
          injection this with this
          subst this
          exact .inr ⟨z, hz, hsz⟩
      rcases hcases y hym with rfl | ⟨ly, hly, hrejy⟩
      · refine .sum _ _ hr hym (ih _ a ha hby hrz ?_)
        rcases hsz with h | ⟨z, hz, hsz⟩
        · rw [← h]; exact .leaf _
        · rcases hcases z hz with rfl | ⟨lz, h1, h2⟩
          · exact hsz
          · rw [← eq_of_rejects hsz h1 h2]; exact .leaf _
      · have hnr := Annotated.not_rejects hby hly
        rcases hsz with h | ⟨z, hz, hsz⟩
        · rw [← h, hrejy] at hnr; simp at hnr
        · rcases rejects_same hsz hrejy with h | ⟨u, rfl⟩
          · rw [h] at hnr; simp at hnr
          · have hdb' : d' = b' := by
              cases hdb with
              | literal => rfl
              | always => rfl
              | variant => cases hby with
                | sum _ _ _ h => rw [hly] at h; simp at h
              | map => cases hby with
                | product _ h => rw [hly] at h; simp at h
              | list => cases hby with
                | unordered _ h => rw [hly] at h; simp at h
                | ordered _ h => rw [hly] at h; simp at h
                | sized _ h => rw [hly] at h; simp at h
              | set => cases hby with
                | unordered _ h => rw [hly] at h; simp at h
                | ordered _ h => rw [hly] at h; simp at h
                | sized _ h => rw [hly] at h; simp at h
            rw [hdb']
            exact hs
  | @map m m' r hkeys _ ih =>
    cases hb with
    | @product _ l _ hr hk hf _ =>
      have hkeys' : ∀ m : List (Value × TypedValue Term), (TypedValue.untypeMap m).map Prod.fst = m.map Prod.fst := by
        intro m; rw [TypedValue.untypeMap_eq, List.map_map]; rfl
      simp only [TypedValue.untype] at hs ⊢
      have hpart : ∃ ma, a = .map ma ∧ ma.map Prod.fst = m'.map Prod.fst ∧
          ∀ k v v' f, (k, v) ∈ ma → (k, v') ∈ TypedValue.untypeMap m' → (k, f) ∈ l.fields →
            SameTree reg f.value.layout v v' := by
        cases hs with
        | sum _ _ hr' => rw [hr] at hr'; simp at hr'
        | leaf =>
          refine ⟨_, rfl, hkeys' _, fun k v v' f h1 h2 _ => ?_⟩
          rw [eq_of_key (Sorted.nodup ha) h1 h2]
          exact .leaf _
        | product ma _ hr' h1 _ h3 =>
          rw [hr] at hr'
          injection hr' with e
          injection e with e
          subst e
          exact ⟨ma, rfl, by rw [h1, hkeys'], h3⟩
      obtain ⟨ma, rfl, hma, hch⟩ := hpart
      have hnd : (m'.map Prod.fst).Nodup := by rw [← hma]; exact Sorted.nodup ha
      have hlen : m.length = m'.length := by
        have := congrArg List.length hkeys
        simpa using this
      refine .product ma _ hr (by rw [hma, hkeys', hkeys]) ?_ ?_
      · intro k v hv
        have : k ∈ m'.map Prod.fst := by rw [← hma]; exact List.mem_map.2 ⟨_, hv, rfl⟩
        obtain ⟨e, he, rfl⟩ := List.mem_map.1 this
        exact hk _ _ he
      · intro k v v' f hv hv' hkf
        rw [TypedValue.untypeMap_eq] at hv'
        obtain ⟨e, he, he'⟩ := List.mem_map.1 hv'
        simp only [Prod.mk.injEq] at he'
        obtain ⟨rfl, rfl⟩ := he'
        obtain ⟨i, hi, rfl⟩ := List.mem_iff_getElem.1 he
        have hz : (m[i], m'[i]'(by omega)) ∈ m.zip m' := by
          rw [List.mem_iff_getElem]; exact ⟨i, by simp; omega, by simp⟩
        have hki : m[i].1 = (m'[i]'(by omega)).1 := by
          have := congrArg (fun l => l[i]?) hkeys
          simp only [List.getElem?_map, List.getElem?_eq_getElem hi, List.getElem?_eq_getElem (hlen ▸ hi),
            Option.map_some, Option.some.injEq] at this
          exact this
        have hmem : m'[i]'(by omega) ∈ m' := List.getElem_mem _
        have hkf' : ((m'[i]'(by omega)).1, f) ∈ l.fields := by rw [← hki]; exact hkf
        refine ih _ hz _ v ?_ (hf _ _ f hmem hkf') (RoundTrip.noEmpty_product hr hrec _ v f hv hkf) ?_
        · cases ha with
          | map _ _ h => exact h _ hv
        · refine hch _ v _ f hv ?_ hkf
          rw [TypedValue.untypeMap_eq]
          exact List.mem_map.2 ⟨_, hmem, by rw [hki]⟩
  | @list vs ws r hlen _ ih =>
    simp only [TypedValue.untype, TypedValue.untypeList_eq] at hs ⊢
    have hget : ∀ i (h : i < vs.length), (vs[i], ws[i]'(by omega)) ∈ vs.zip ws := by
      intro i h; rw [List.mem_iff_getElem]; exact ⟨i, by simp; omega, by simp⟩
    cases hb with
    | @unordered _ l _ hr hf =>
      have hpart : ∃ as, a = .list as ∧ (∀ v ∈ as, ∃ w ∈ ws, SameTree reg l.item.value.layout v w.untype) ∧
          (∀ w ∈ ws, ∃ v ∈ as, SameTree reg l.item.value.layout v w.untype) := by
        cases hs with
        | sum _ _ hr' => rw [hr] at hr'; simp at hr'
        | leaf =>
          refine ⟨_, rfl, ?_, ?_⟩
          · intro v hv
            obtain ⟨w, hw, rfl⟩ := List.mem_map.1 hv
            exact ⟨w, hw, .leaf _⟩
          · intro w hw
            exact ⟨_, List.mem_map.2 ⟨w, hw, rfl⟩, .leaf _⟩
        | unordered as _ f g hr' h1 h2 h3 h4 =>
          rw [hr] at hr'; injection hr' with e; injection e with e; subst e
          refine ⟨as, rfl, ?_, ?_⟩
          · intro v hv
            obtain ⟨w, hw, he⟩ := List.mem_map.1 (h1 v hv)
            exact ⟨w, hw, by rw [he]; exact h2 v hv⟩
          · intro w hw
            exact ⟨_, h3 _ (List.mem_map.2 ⟨w, hw, rfl⟩), h4 _ (List.mem_map.2 ⟨w, hw, rfl⟩)⟩
        | ordered _ _ hr' => rw [hr] at hr'; simp at hr'
        | sized _ _ hr' => rw [hr] at hr'; simp at hr'
      obtain ⟨as, rfl, h1, h2⟩ := hpart
      have hsort : ∀ v ∈ as, v.Sorted := by cases ha with | list _ h => exact h
      refine sameTree_set hr ?_ ?_
      · intro v hv
        obtain ⟨w, hw, hvw⟩ := h1 v hv
        obtain ⟨i, hi, rfl⟩ := List.mem_iff_getElem.1 hw
        exact ⟨_, List.mem_map.2 ⟨_, List.getElem_mem (by omega), rfl⟩,
          ih _ (hget i (by omega)) _ v (hsort v hv) (hf _ hw) (RoundTrip.noEmpty_unordered hr hrec v hv) hvw⟩
      · intro w hw
        obtain ⟨u, hu, rfl⟩ := List.mem_map.1 hw
        obtain ⟨i, hi, rfl⟩ := List.mem_iff_getElem.1 hu
        have hw' : ws[i]'(by omega) ∈ ws := List.getElem_mem _
        obtain ⟨v, hv, hvw⟩ := h2 _ hw'
        exact ⟨v, hv, ih _ (hget i hi) _ v (hsort v hv) (hf _ hw') (RoundTrip.noEmpty_unordered hr hrec v hv) hvw⟩
    | @ordered _ l _ hr hf =>
      have hpart : ∃ as, a = .list as ∧ as.length = ws.length ∧
          ∀ i (h : i < as.length) (h' : i < ws.length), SameTree reg l.node.value.layout as[i] ws[i].untype := by
        cases hs with
        | sum _ _ hr' => rw [hr] at hr'; simp at hr'
        | leaf => exact ⟨_, rfl, by simp, fun i h h' => by simp only [List.getElem_map]; exact .leaf _⟩
        | unordered _ _ _ _ hr' => rw [hr] at hr'; simp at hr'
        | ordered as _ hr' h1 h2 =>
          rw [hr] at hr'; injection hr' with e; injection e with e; subst e
          refine ⟨as, rfl, by simpa using h1, fun i h h' => ?_⟩
          have := h2 (as[i], (ws.map TypedValue.untype)[i]'(by simpa using h'))
            (by rw [List.mem_iff_getElem]; exact ⟨i, by simp; omega, by simp⟩)
          simpa using this
        | sized _ _ hr' => rw [hr] at hr'; simp at hr'
      obtain ⟨as, rfl, hl, hch⟩ := hpart
      have hsort : ∀ v ∈ as, v.Sorted := by cases ha with | list _ h => exact h
      refine .ordered as _ hr (by simp; omega) ?_
      intro e he
      obtain ⟨i, hi, rfl⟩ := List.mem_iff_getElem.1 he
      simp only [List.length_zip, List.length_map] at hi
      simp only [List.getElem_zip, List.getElem_map]
      exact ih _ (hget i (by omega)) _ _ (hsort _ (List.getElem_mem _)) (hf _ (List.getElem_mem _))
        ((RoundTrip.noEmpty_ordered hr hrec).2 _ (List.getElem_mem _)) (hch i (by omega) (by omega))
    | @sized _ l _ hr hlen' hf =>
      have hpart : ∃ as, a = .list as ∧ as.length = ws.length ∧
          ∀ i (h : i < as.length) (h' : i < ws.length), SameTree reg (l.items[i]'(by omega)).value.layout as[i] ws[i].untype := by
        cases hs with
        | sum _ _ hr' => rw [hr] at hr'; simp at hr'
        | leaf => exact ⟨_, rfl, by simp, fun i h h' => by simp only [List.getElem_map]; exact .leaf _⟩
        | unordered _ _ _ _ hr' => rw [hr] at hr'; simp at hr'
        | ordered _ _ hr' => rw [hr] at hr'; simp at hr'
        | sized as _ hr' h0 h1 h2 =>
          rw [hr] at hr'; injection hr' with e; injection e with e; subst e
          refine ⟨as, rfl, by simpa using h1, fun i h h' => ?_⟩
          have := h2 (l.items[i]'(by omega), as[i], (ws.map TypedValue.untype)[i]'(by simpa using h'))
            (by rw [List.mem_iff_getElem]; exact ⟨i, by simp; omega, by simp⟩)
          simpa using this
      obtain ⟨as, rfl, hl, hch⟩ := hpart
      have hsort : ∀ v ∈ as, v.Sorted := by cases ha with | list _ h => exact h
      refine .sized as _ hr (by omega) (by simp; omega) ?_
      intro e he
      obtain ⟨i, hi, rfl⟩ := List.mem_iff_getElem.1 he
      simp only [List.length_zip, List.length_map] at hi
      simp only [List.getElem_zip, List.getElem_map]
      refine ih _ (hget i (by omega)) _ _ (hsort _ (List.getElem_mem _)) ?_
        (RoundTrip.noEmpty_sized hr hrec (l.items[i]'(by omega), as[i]'(by omega)) (by
          rw [List.mem_iff_getElem]; exact ⟨i, by simp; omega, by simp⟩)) (hch i (by omega) (by omega))
      refine hf (l.items[i]'(by omega), ws[i]'(by omega)) ?_
      rw [List.mem_iff_getElem]
      exact ⟨i, by simp; omega, by simp⟩
  | @set vs vs' ws r l' hr' hperm hlen _ ih =>
    simp only [TypedValue.untype, TypedValue.untypeList_eq] at hs ⊢
    have hget : ∀ i (h : i < vs'.length), (vs'[i], ws[i]'(by omega)) ∈ vs'.zip ws := by
      intro i h; rw [List.mem_iff_getElem]; exact ⟨i, by simp; omega, by simp⟩
    cases hb with
    | @unordered _ l _ hr hf =>
      have hpart : ∃ as, a = .list as ∧ (∀ v ∈ as, ∃ w ∈ ws, SameTree reg l.item.value.layout v w.untype) ∧
          (∀ w ∈ ws, ∃ v ∈ as, SameTree reg l.item.value.layout v w.untype) := by
        cases hs with
        | sum _ _ hr' => rw [hr] at hr'; simp at hr'
        | leaf =>
          refine ⟨_, rfl, ?_, ?_⟩
          · intro v hv
            obtain ⟨w, hw, rfl⟩ := List.mem_map.1 hv
            exact ⟨w, hw, .leaf _⟩
          · intro w hw
            exact ⟨_, List.mem_map.2 ⟨w, hw, rfl⟩, .leaf _⟩
        | unordered as _ f g hr' h1 h2 h3 h4 =>
          rw [hr] at hr'; injection hr' with e; injection e with e; subst e
          refine ⟨as, rfl, ?_, ?_⟩
          · intro v hv
            obtain ⟨w, hw, he⟩ := List.mem_map.1 (h1 v hv)
            exact ⟨w, hw, by rw [he]; exact h2 v hv⟩
          · intro w hw
            exact ⟨_, h3 _ (List.mem_map.2 ⟨w, hw, rfl⟩), h4 _ (List.mem_map.2 ⟨w, hw, rfl⟩)⟩
        | ordered _ _ hr' => rw [hr] at hr'; simp at hr'
        | sized _ _ hr' => rw [hr] at hr'; simp at hr'
      obtain ⟨as, rfl, h1, h2⟩ := hpart
      have hsort : ∀ v ∈ as, v.Sorted := by cases ha with | list _ h => exact h
      refine sameTree_set hr ?_ ?_
      · intro v hv
        obtain ⟨w, hw, hvw⟩ := h1 v hv
        obtain ⟨i, hi, rfl⟩ := List.mem_iff_getElem.1 hw
        exact ⟨_, List.mem_map.2 ⟨_, hperm.mem_iff.1 (List.getElem_mem (by omega)), rfl⟩,
          ih _ (hget i (by omega)) _ v (hsort v hv) (hf _ hw) (RoundTrip.noEmpty_unordered hr hrec v hv) hvw⟩
      · intro w hw
        obtain ⟨u, hu, rfl⟩ := List.mem_map.1 hw
        obtain ⟨i, hi, rfl⟩ := List.mem_iff_getElem.1 (hperm.mem_iff.2 hu)
        have hw' : ws[i]'(by omega) ∈ ws := List.getElem_mem _
        obtain ⟨v, hv, hvw⟩ := h2 _ hw'
        exact ⟨v, hv, ih _ (hget i hi) _ v (hsort v hv) (hf _ hw') (RoundTrip.noEmpty_unordered hr hrec v hv) hvw⟩
    | ordered _ hr => rw [hr] at hr'; simp at hr'
    | sized _ hr => rw [hr] at hr'; simp at hr'

/-- What derived code writes, it reads back. -/
theorem round_trip (c : SeCtx) (x : Xsd) (hx : XsdLaws x) (fromLiteral : Term → String → Option (TypedLiteral Term))
    (parseInt : String → Option Int) (hl : SeLaws c) (ht : SeText c x) (hreg : c.reg.Closed)
    (hwt : c.reg.WellTyped) (hk : c.reg.DistinctKeys) (hsort : c.reg.Sorted)
    (hu : ∀ ref l, c.reg ref = some (.unit l) → l.const.Sorted) (o : DeOptions) (hb : BlankNames o)
    (hord : ∀ l, (o.order l).Perm l) (n : Nat) (ref : Term) (htree : TreeLayouts c.reg x ref) (v : TypedValue Term)
    (hv : HasType c.reg ref v) (hid : AllIds (fun s => c.isIri s = true) v) (hpr : v.untype.Printable x)
    (hne : Recoverable c.reg ref v.untype) (hnode : (nodeIds c.reg n ref v.untype).Nodup) (dataset : List (Quad Term))
    (subjects : List Term) (hrun : save c n v ref o = .ok (dataset, subjects))
    (hds : DsLaws (DsCtx.ofTerms c fromLiteral parseInt dataset) x)
    (htot : DsTotal (DsCtx.ofTerms c fromLiteral parseInt dataset) x) :
    ∃ w N, (∀ m, N ≤ m → deserialize (DsCtx.ofTerms c fromLiteral parseInt dataset) m none ref subjects = .ok w) ∧
      SameTree c.reg ref v.untype w.untype := by
  obtain ⟨le, hle⟩ := exists_totalOrder (TypedValue Term)
  obtain ⟨order, hord', hsave⟩ := save_sim c x hl ht hreg hwt hk n ref v hv (decided_of_recoverable hv htree hne) hid hpr o
    hord
  rw [hsave] at hrun
  have hnd : dataset.Nodup := by
    unfold dehydrate at hrun
    cases hr : c.reg ref with
    | none => simp [hr] at hrun
    | some l =>
      simp only [hr] at hrun
      split at hrun
      · split at hrun
        · simp at hrun
        · simp only [Out.ok.injEq, Prod.mk.injEq] at hrun
          rw [← hrun.1]
          exact List.nodup_dedup _
      all_goals simp at hrun
  obtain ⟨w, N, hw, hs⟩ := Props.C17_tree_round_trip_partial ⟨c.reg, c.isIri, x⟩ le { o with order := order }
    hx hsort ⟨hb.generator, hb.input, hb.injective, hb.input_ne⟩ hord' ref htree n v.untype
    (HasType.sorted hsort hu hv) hne hnode dataset subjects hrun
  have hw := hw N (Nat.le_refl _)
  have hmean := ((Props.C04_hydrate_meaning (HyCtx.ofTerms c.reg x le dataset) hreg hnd hle N none ref subjects).1 w hw N
    (Nat.le_refl _) w).2 rfl
  have hann := (Props.C06_hydrate_annotated (HyCtx.ofTerms c.reg x le dataset) (fun _ => true) (fun _ _ _ => rfl) hk N none
    ref subjects w hw).1
  obtain ⟨u, ⟨M, hM⟩, hu'⟩ := meaning_deserialize (DsCtx.ofTerms c fromLiteral parseInt dataset) x hds hreg hnd htot le N
    none ref subjects w hmean
  exact ⟨u, M, hM, same_of_upToOrder hu' ref _ (HasType.sorted hsort hu hv) hann hne hs⟩

end Derived

end Verif
