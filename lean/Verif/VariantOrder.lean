import Verif.VariantOrderSpec
import Verif.HydrateMono

/-!
# Hydration with variants in another order

Helper lemmas for C101. No further code is modelled.
-/

set_option linter.unusedSectionVars false
set_option linter.unusedSimpArgs false

namespace Verif

variable {R : Type _} [DecidableEq R]

/-- Two outcomes that do not contradict each other: both values are related, and there is not a value and an error. -/
def Out.Compat {ε α β : Type _} (P : α → β → Prop) : Out ε α → Out ε β → Prop
  | .ok a, .ok b => P a b
  | .ok _, .err _ => False
  | .err _, .ok _ => False
  | _, _ => True

namespace Out.Compat

variable {ε α β γ δ : Type _} {P : α → β → Prop} {Q : γ → δ → Prop}

theorem bind {a : Out ε α} {b : Out ε β} {f : α → Out ε γ} {g : β → Out ε δ} (h : Compat P a b)
    (hf : ∀ x y, P x y → Compat Q (f x) (g y)) : Compat Q (a.bind f) (b.bind g) := by
  rcases a with x | e | _ | _ <;> rcases b with y | e' | _ | _ <;> simp only [Out.bind, Compat] at h ⊢
  · exact hf x y h
  all_goals first | (cases f x <;> trivial) | (cases g y <;> trivial) | trivial

theorem same {a : Out ε α} : Compat (fun x y : α => x = y) a a := by
  cases a <;> simp [Compat]

theorem bindSame {a : Out ε α} {f : α → Out ε γ} {g : α → Out ε δ} (hf : ∀ x, Compat Q (f x) (g x)) :
    Compat Q (a.bind f) (a.bind g) := bind same fun x _ h => h ▸ hf x

theorem mono {P' : α → β → Prop} {a : Out ε α} {b : Out ε β} (h : Compat P a b) (hp : ∀ x y, P x y → P' x y) : Compat P' a b := by
  rcases a with x | e | _ | _ <;> rcases b with y | e' | _ | _ <;> simp only [Compat] at h ⊢
  exact hp x y h

theorem panic_left {b : Out ε β} : Compat P .panic b := by cases b <;> trivial

theorem fuel_left {b : Out ε β} : Compat P .fuel b := by cases b <;> trivial

end Out.Compat

namespace Hydrate

variable {c : HyCtx R} {rec rec' : Rec R} {P : TypedValue R → TypedValue R → Prop}

/-- What variants give. -/
def Gives (c : HyCtx R) (rec : Rec R) (g : Option R) (ref : R) (σ : Subst R) (x : Variant R) (w : TypedValue R) : Prop :=
  ∃ σ', uniqueMatch c (.variant ref x.name) σ x.dataset g = .ok (some σ') ∧ subValue rec g x.value σ' = .ok w

/-- A variant that has been gone through. -/
def Done (c : HyCtx R) (rec : Rec R) (g : Option R) (ref : R) (σ : Subst R) (x : Variant R) : Prop :=
  ∃ o, uniqueMatch c (.variant ref x.name) σ x.dataset g = .ok o ∧
    ∀ σ', o = some σ' → (∃ w, subValue rec g x.value σ' = .ok w) ∨ ∃ e, subValue rec g x.value σ' = .err e

variable {g : Option R} {ref : R} {σ : Subst R}

theorem variants_ok_all {vs : List (Variant R)} {i : Nat} {sel : Option (Nat × TypedValue R)} {v : TypedValue R}
    (h : variants c rec g ref σ i vs sel = .ok v) :
    (∀ x ∈ vs, Done c rec g ref σ x) ∧
    ((∃ j w, sel = some (j, w) ∧ v = .variant w ref j ∧ ∀ x ∈ vs, ∀ w', ¬ Gives c rec g ref σ x w') ∨
     (sel = none ∧ ∃ k x w, vs[k]? = some x ∧ Gives c rec g ref σ x w ∧ v = .variant w ref (i + k) ∧
      ∀ j y w', vs[j]? = some y → Gives c rec g ref σ y w' → j = k)) := by
  induction vs generalizing i sel with
  | nil =>
    rcases sel with _ | ⟨j, w⟩
    · simp [variants] at h
    · simp only [variants] at h
      injection h with h
      exact ⟨by simp, .inl ⟨j, w, rfl, h.symm, by simp⟩⟩
  | cons x vs ih =>
    unfold variants at h
    obtain ⟨o, h1, h2⟩ := Out.bind_eq_ok.1 h
    have skip : (∀ w', ¬ Gives c rec g ref σ x w') → Done c rec g ref σ x → variants c rec g ref σ (i + 1) vs sel = .ok v →
        (∀ x' ∈ x :: vs, Done c rec g ref σ x') ∧
        ((∃ j w, sel = some (j, w) ∧ v = .variant w ref j ∧ ∀ x' ∈ x :: vs, ∀ w', ¬ Gives c rec g ref σ x' w') ∨
         (sel = none ∧ ∃ k x' w, (x :: vs)[k]? = some x' ∧ Gives c rec g ref σ x' w ∧ v = .variant w ref (i + k) ∧
          ∀ j y w', (x :: vs)[j]? = some y → Gives c rec g ref σ y w' → j = k)) := by
      intro hx hd h
      obtain ⟨h3, h4⟩ := ih h
      refine ⟨fun y hy => ?_, ?_⟩
      · rcases List.mem_cons.1 hy with rfl | hy
        · exact hd
        · exact h3 y hy
      · rcases h4 with ⟨j, w, h5, h6, h7⟩ | ⟨h5, k, y, w, h6, h7, h8, h9⟩
        · refine .inl ⟨j, w, h5, h6, fun y hy => ?_⟩
          rcases List.mem_cons.1 hy with rfl | hy
          · exact hx
          · exact h7 y hy
        · refine .inr ⟨h5, k + 1, y, w, by simpa using h6, h7, by rw [h8, Nat.add_assoc, Nat.add_comm 1], fun j z w' hj hz => ?_⟩
          cases j with
          | zero =>
            simp only [List.getElem?_cons_zero, Option.some.injEq] at hj
            exact absurd (hj ▸ hz) (hx w')
          | succ j =>
            rw [h9 j z w' (by simpa using hj) hz]
    cases o with
    | none =>
      refine skip ?_ ⟨none, h1, fun _ h => nomatch h⟩ h2
      rintro w' ⟨σ', h3, -⟩
      rw [h1] at h3
      exact nomatch h3
    | some σ' =>
      dsimp only at h2
      cases hs : subValue rec g x.value σ' with
      | ok w =>
        rw [hs] at h2
        rcases sel with _ | s
        · obtain ⟨h3, h4⟩ := ih h2
          have hd : Done c rec g ref σ x := ⟨some σ', h1, fun _ e => by cases e; exact .inl ⟨w, hs⟩⟩
          refine ⟨fun y hy => ?_, ?_⟩
          · rcases List.mem_cons.1 hy with rfl | hy
            · exact hd
            · exact h3 y hy
          · rcases h4 with ⟨j, w₁, h5, h6, h7⟩ | ⟨h5, -⟩
            · cases h5
              refine .inr ⟨rfl, 0, x, w, rfl, ⟨σ', h1, hs⟩, h6, fun j y w' hj hy => ?_⟩
              cases j with
              | zero => rfl
              | succ j => exact absurd hy (h7 y (List.mem_of_getElem? (by simpa using hj)) w')
            · exact nomatch h5
        · exact nomatch h2
      | err e =>
        rw [hs] at h2
        refine skip ?_ ⟨some σ', h1, fun _ e' => by cases e'; exact .inr ⟨e, hs⟩⟩ h2
        rintro w' ⟨τ, h3, h4⟩
        rw [h1] at h3
        cases h3
        rw [hs] at h4
        exact nomatch h4
      | panic => rw [hs] at h2; exact nomatch h2
      | fuel => rw [hs] at h2; exact nomatch h2

theorem variants_err_match {vs : List (Variant R)} {i : Nat} {sel : Option (Nat × TypedValue R)} {e : HyError R}
    (h : variants c rec g ref σ i vs sel = .err e) :
    ∃ x ∈ vs, ∃ e', uniqueMatch c (.variant ref x.name) σ x.dataset g = .err e' := by
  induction vs generalizing i sel with
  | nil => rcases sel with _ | ⟨j, w⟩ <;> simp [variants] at h
  | cons x vs ih =>
    unfold variants at h
    have step : ∀ i sel, variants c rec g ref σ i vs sel = .err e →
        ∃ x' ∈ x :: vs, ∃ e', uniqueMatch c (.variant ref x'.name) σ x'.dataset g = .err e' := by
      intro i sel h
      obtain ⟨y, hy, h⟩ := ih h
      exact ⟨y, List.mem_cons_of_mem _ hy, h⟩
    cases hu : uniqueMatch c (.variant ref x.name) σ x.dataset g with
    | err e' => exact ⟨x, by simp, e', hu⟩
    | panic => rw [hu] at h; exact nomatch h
    | fuel => rw [hu] at h; exact nomatch h
    | ok o =>
      rw [hu, Out.bind_ok] at h
      cases o with
      | none => exact step _ _ h
      | some σ' =>
        dsimp only at h
        split at h
        · split at h
          · exact nomatch h
          · exact step _ _ h
        · exact step _ _ h
        · exact nomatch h
        · exact nomatch h

theorem uniqueMatch_ok_frag {frag frag' : DataFragment R} {pats : List (QuadPat R)} {o : Option (Subst R)}
    (h : uniqueMatch c frag σ pats g = .ok o) : uniqueMatch c frag' σ pats g = .ok o := by
  unfold uniqueMatch at h ⊢
  revert h
  cases Matching.intoUnique c.ds (Matching.new σ (withDefaultGraph pats g)) <;> simp [Out.mapErr]

theorem uniqueMatch_err_frag {frag frag' : DataFragment R} {pats : List (QuadPat R)} {e : HyError R}
    (h : uniqueMatch c frag σ pats g = .err e) : ∃ e', uniqueMatch c frag' σ pats g = .err e' := by
  unfold uniqueMatch at h ⊢
  revert h
  cases Matching.intoUnique c.ds (Matching.new σ (withDefaultGraph pats g)) <;> simp [Out.mapErr]

theorem counterpart {vs vs' : List (Variant R)} (hp : (vs.map Variant.nameless).Perm (vs'.map Variant.nameless)) {x : Variant R}
    (hx : x ∈ vs) : ∃ y ∈ vs', y.value = x.value ∧ y.dataset = x.dataset := by
  have := hp.mem_iff.1 (List.mem_map_of_mem (f := Variant.nameless) hx)
  obtain ⟨y, hy, h⟩ := List.mem_map.1 this
  simp only [Variant.nameless, Prod.mk.injEq] at h
  exact ⟨y, hy, h.2.1, h.2.2⟩

variable (hrec : ∀ g r i, (rec g r i).Compat P (rec' g r i))

include hrec

theorem subValue_compat (fmt : ValueFormat R) (τ : Subst R) : (subValue rec g fmt τ).Compat P (subValue rec' g fmt τ) :=
  .bindSame fun _ => .bindSame fun _ => hrec _ _ _

theorem variants_compat {vs vs' : List (Variant R)} (hp : (vs.map Variant.nameless).Perm (vs'.map Variant.nameless)) :
    (variants c rec g ref σ 0 vs none).Compat (fun v v' => ∃ w w' i j, v = .variant w ref i ∧ v' = .variant w' ref j ∧ P w w')
      (variants c rec' g ref σ 0 vs' none) := by
  have okErr : ∀ {rec₁ rec₂ : Rec R} {vs vs' : List (Variant R)} {v e},
      (vs.map Variant.nameless).Perm (vs'.map Variant.nameless) → variants c rec₁ g ref σ 0 vs none = .ok v →
      variants c rec₂ g ref σ 0 vs' none = .err e → False := by
    intro rec₁ rec₂ vs vs' v e hp h h'
    obtain ⟨x, hx, e', he⟩ := variants_err_match h'
    obtain ⟨y, hy, -, hy2⟩ := counterpart hp.symm hx
    obtain ⟨o, ho, -⟩ := (variants_ok_all h).1 y hy
    obtain ⟨e₂, he₂⟩ := uniqueMatch_err_frag (frag' := .variant ref y.name) he
    rw [hy2, he₂] at ho
    exact nomatch ho
  cases h : variants c rec g ref σ 0 vs none with
  | ok v =>
    cases h' : variants c rec' g ref σ 0 vs' none with
    | ok v' =>
      obtain ⟨hd, ⟨_, _, hn, -⟩ | ⟨-, k, x, w, hk, hx, rfl, hu⟩⟩ := variants_ok_all h
      · exact nomatch hn
      obtain ⟨-, ⟨_, _, hn, -⟩ | ⟨-, k', x', w', hk', ⟨σ', hx1, hx2⟩, rfl, -⟩⟩ := variants_ok_all h'
      · exact nomatch hn
      refine ⟨w, w', _, _, rfl, rfl, ?_⟩
      obtain ⟨y, hy, hy1, hy2⟩ := counterpart hp.symm (List.mem_of_getElem? hk')
      have hm : uniqueMatch c (.variant ref y.name) σ y.dataset g = .ok (some σ') := by
        rw [hy2]
        exact uniqueMatch_ok_frag hx1
      have hc := subValue_compat (g := g) hrec y.value σ'
      rw [hy1, hx2, ← hy1] at hc
      obtain ⟨o, ho, hdo⟩ := hd y hy
      rw [hm] at ho
      cases ho
      rcases hdo σ' rfl with ⟨w₁, hw⟩ | ⟨e, he⟩
      · rw [hw] at hc
        obtain ⟨j, hj⟩ := List.mem_iff_getElem?.1 hy
        cases hu j y w₁ hj ⟨σ', hm, hw⟩
        rw [hk] at hj
        cases hj
        obtain ⟨τ, ht1, ht2⟩ := hx
        rw [hm] at ht1
        cases ht1
        rw [hw] at ht2
        cases ht2
        exact hc
      · rw [he] at hc
        exact hc.elim
    | err e => exact (okErr hp h h').elim
    | panic => trivial
    | fuel => trivial
  | err e =>
    cases h' : variants c rec' g ref σ 0 vs' none with
    | ok v' => exact (okErr hp.symm h' h).elim
    | _ => trivial
  | panic => exact .panic_left
  | fuel => exact .fuel_left

theorem fields_compat (fs : List (Value × Field R)) :
    (fields c rec g ref σ fs).Compat (List.Forall₂ fun a b => a.1 = b.1 ∧ P a.2 b.2) (fields c rec' g ref σ fs) := by
  induction fs with
  | nil => exact .nil
  | cons e fs ih =>
    obtain ⟨key, field⟩ := e
    unfold fields
    refine .bindSame fun o => ?_
    cases o with
    | some τ =>
      refine (subValue_compat hrec _ _).bind fun v v' hv => ih.bind fun r r' hr => ?_
      exact .cons ⟨rfl, hv⟩ hr
    | none =>
      dsimp only
      split
      · trivial
      · exact ih

theorem nodes_compat (node : ItemLayout R) (tail : R) (n : Nat) (head : R) :
    (nodes c rec g ref node σ tail n head).Compat (List.Forall₂ P) (nodes c rec' g ref node σ tail n head) := by
  induction n generalizing head with
  | zero =>
    unfold nodes
    split
    · exact .nil
    · trivial
  | succ n ih =>
    unfold nodes
    split
    · exact .nil
    · refine .bindSame fun τ => (subValue_compat hrec _ _).bind fun v v' hv => .bindSame fun h => (ih h).bind fun r r' hr => ?_
      exact .cons hv hr

theorem sizedItems_compat (is : List (ItemLayout R)) (k : Nat) :
    (sizedItems c rec g ref σ k is).Compat (List.Forall₂ P) (sizedItems c rec' g ref σ k is) := by
  induction is generalizing k with
  | nil => exact .nil
  | cons item is ih =>
    unfold sizedItems
    refine .bindSame fun τ => (subValue_compat hrec _ _).bind fun v v' hv => (ih _).bind fun r r' hr => ?_
    exact .cons hv hr

theorem unorderedItems_compat (fmt : ValueFormat R) (n : Nat) (st : Matching.Stack R) :
    (unorderedItems c rec g fmt n st).Compat (List.Forall₂ P) (unorderedItems c rec' g fmt n st) := by
  induction n generalizing st with
  | zero => trivial
  | succ n ih =>
    unfold unorderedItems
    refine .bindSame fun o => ?_
    cases o with
    | none => exact .nil
    | some p =>
      obtain ⟨τ, st'⟩ := p
      refine (subValue_compat hrec _ _).bind fun v v' hv => (ih _).bind fun r r' hr => ?_
      exact .cons hv hr

omit hrec in
theorem forall₂_getElem? {α β : Type _} {Q : α → β → Prop} {l : List α} {l' : List β} (h : List.Forall₂ Q l l') {i : Nat} {a : α} {b : β}
    (ha : l[i]? = some a) (hb : l'[i]? = some b) : Q a b := by
  induction h generalizing i with
  | nil => simp at ha
  | cons h _ ih =>
    cases i with
    | zero =>
      simp only [List.getElem?_cons_zero, Option.some.injEq] at ha hb
      exact ha ▸ hb ▸ h
    | succ i => exact ih (by simpa using ha) (by simpa using hb)

omit hrec in
theorem forall₂_keys {m m' : List (Value × TypedValue R)} (h : List.Forall₂ (fun a b => a.1 = b.1 ∧ P a.2 b.2) m m') :
    m.map Prod.fst = m'.map Prod.fst := by
  induction h with
  | nil => rfl
  | cons h _ ih => simp [h.1, ih]

omit hrec in
theorem literal_compat {reg : Registry R} (o : Out (HyError R) (TypedLiteral R)) :
    (o.map TypedValue.literal).Compat (TypedValue.Alike reg) (o.map TypedValue.literal) := by
  cases o with
  | ok l => exact .literal l
  | _ => trivial

omit hrec in
theorem variants_anyReg (reg' : Registry R) (vs : List (Variant R)) (i : Nat) (sel : Option (Nat × TypedValue R)) :
    variants { c with reg := reg' } rec g ref σ i vs sel = variants c rec g ref σ i vs sel := by
  induction vs generalizing i sel with
  | nil => rcases sel with _ | ⟨j, w⟩ <;> rfl
  | cons x vs ih =>
    unfold variants
    simp only [ih]
    rfl

omit hrec in
theorem fields_anyReg (reg' : Registry R) (fs : List (Value × Field R)) :
    fields { c with reg := reg' } rec g ref σ fs = fields c rec g ref σ fs := by
  induction fs with
  | nil => rfl
  | cons x fs ih =>
    unfold fields
    simp only [ih]
    rfl

omit hrec in
theorem nodes_anyReg (reg' : Registry R) (node : ItemLayout R) (tail : R) (n : Nat) (head : R) :
    nodes { c with reg := reg' } rec g ref node σ tail n head = nodes c rec g ref node σ tail n head := by
  induction n generalizing head with
  | zero => unfold nodes; rfl
  | succ n ih =>
    unfold nodes
    simp only [ih]
    rfl

omit hrec in
theorem sizedItems_anyReg (reg' : Registry R) (is : List (ItemLayout R)) (k : Nat) :
    sizedItems { c with reg := reg' } rec g ref σ k is = sizedItems c rec g ref σ k is := by
  induction is generalizing k with
  | nil => rfl
  | cons x is ih =>
    unfold sizedItems
    simp only [ih]
    rfl

omit hrec in
theorem unorderedItems_anyReg (reg' : Registry R) (fmt : ValueFormat R) (n : Nat) (st : Matching.Stack R) :
    unorderedItems { c with reg := reg' } rec g fmt n st = unorderedItems c rec g fmt n st := by
  induction n generalizing st with
  | zero => rfl
  | succ n ih =>
    unfold unorderedItems
    simp only [ih]

omit hrec in
theorem layout_anyReg (reg' : Registry R) (n : Nat) (inputs : List R) (l : Layout R) :
    layout { c with reg := reg' } rec n g ref inputs l = layout c rec n g ref inputs l := by
  cases l <;> simp only [layout, variants_anyReg, fields_anyReg, nodes_anyReg, sizedItems_anyReg, unorderedItems_anyReg] <;> rfl

omit hrec in
theorem layout_compat (hrec : ∀ g r i, (rec g r i).Compat (TypedValue.Alike c.reg) (rec' g r i)) {l l' : Layout R}
    (hl : l.SameVariants l') (hr : c.reg ref = some l) (n : Nat) (inputs : List R) :
    (layout c rec n g ref inputs l).Compat (TypedValue.Alike c.reg) (layout c rec' n g ref inputs l') := by
  have hsum : ∀ (σ : Subst R) (vs vs' : List (Variant R)), (vs.map Variant.nameless).Perm (vs'.map Variant.nameless) →
      (variants c rec g ref σ 0 vs none).Compat (TypedValue.Alike c.reg) (variants c rec' g ref σ 0 vs' none) := by
    intro σ vs vs' hp
    refine (variants_compat hrec hp).mono ?_
    rintro v v' ⟨w, w', i, j, rfl, rfl, h3⟩
    exact .variant ref i j h3
  cases hl with
  | sum input _ dataset hp => exact .bindSame fun σ => hsum σ _ _ hp
  | refl l =>
    cases l with
    | never => trivial
    | always => exact TypedValue.Alike.always (reg := c.reg) _
    | unit l => exact .bindSame fun _ => TypedValue.Alike.literal (reg := c.reg) _
    | boolean l => exact literal_compat _
    | number l => exact literal_compat _
    | byteString l => exact literal_compat _
    | textString l => exact literal_compat _
    | id l => exact literal_compat _
    | sum l => exact .bindSame fun σ => hsum σ _ _ (List.Perm.refl _)
    | product l =>
      exact .bindSame fun σ => (fields_compat hrec _).bind fun m m' h =>
        TypedValue.Alike.map (reg := c.reg) ref (forall₂_keys h) fun i a b ha hb => (forall₂_getElem? h ha hb).2
    | ordered l =>
      exact .bindSame fun σ => .bindSame fun head => .bindSame fun tail => (nodes_compat hrec _ _ _ _).bind fun m m' h =>
        TypedValue.Alike.list (reg := c.reg) ref h.length_eq fun i a b ha hb => forall₂_getElem? h ha hb
    | sized l =>
      exact .bindSame fun σ => (sizedItems_compat hrec _ _).bind fun m m' h =>
        TypedValue.Alike.list (reg := c.reg) ref h.length_eq fun i a b ha hb => forall₂_getElem? h ha hb
    | unordered l =>
      exact .bindSame fun σ => (unorderedItems_compat hrec _ _ _).bind fun m m' h =>
        TypedValue.Alike.set (reg := c.reg) ref l m m' hr (sortBy_perm _ _) (sortBy_perm _ _).symm h.length_eq
          fun i a b ha hb => forall₂_getElem? h ha hb

omit hrec in
theorem hydrate_compat {reg' : Registry R} (hreg : c.reg.SameVariants reg') (n : Nat) (g : Option R) (ref : R) (inputs : List R) :
    (hydrate c n g ref inputs).Compat (TypedValue.Alike c.reg) (hydrate { c with reg := reg' } n g ref inputs) := by
  induction n generalizing g ref inputs with
  | zero => trivial
  | succ n ih =>
    unfold hydrate
    rcases hreg ref with ⟨h1, h2⟩ | ⟨l, l', h1, h2, h3⟩
    · dsimp only
      rw [h1, h2]
      trivial
    · dsimp only
      rw [h1, h2]
      dsimp only
      have hc : l.inputCount = l'.inputCount := by cases h3 <;> rfl
      rw [← hc]
      split
      · trivial
      · rw [layout_anyReg (c := c) reg']
        exact layout_compat ih h3 h1 n inputs

end Hydrate

end Verif
