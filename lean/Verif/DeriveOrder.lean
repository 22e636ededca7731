import Verif.DeriveTotal

/-! # The order of unordered lists: meanings with and without it -/

set_option linter.unusedSectionVars false
set_option linter.unusedSimpArgs false

namespace Verif

namespace Derived

variable {R : Type} [DecidableEq R]

/-- Another order of typed values. -/
def withOrder (hy : HyCtx R) (le : TypedValue R → TypedValue R → Bool) : HyCtx R := { hy with le := le }

section
variable {M M' : Option R → R → List R → TypedValue R → Prop} {reg : Registry R}
variable (h : ∀ g r i v, M g r i v → ∃ w, M' g r i w ∧ UpToOrder reg v w)
include h

theorem sub_order {g : Option R} {f : ValueFormat R} {σ : Subst R} {v : TypedValue R} (hs : SubMeaning M g f σ v) :
    ∃ w, SubMeaning M' g f σ w ∧ UpToOrder reg v w := by
  obtain ⟨ins, g', h1, h2, h3⟩ := hs
  obtain ⟨w, h4, h5⟩ := h _ _ _ _ h3
  exact ⟨w, ⟨ins, g', h1, h2, h4⟩, h5⟩

theorem items_order {g : Option R} {f : ValueFormat R} {σs : List (Subst R)} {vs : List (TypedValue R)}
    (hs : List.Forall₂ (fun τ v => SubMeaning M g f τ v) σs vs) :
    ∃ ws, List.Forall₂ (fun τ v => SubMeaning M' g f τ v) σs ws ∧ List.Forall₂ (UpToOrder reg) vs ws := by
  induction hs with
  | nil => exact ⟨[], .nil, .nil⟩
  | cons h1 _ ih =>
    obtain ⟨w, h2, h3⟩ := sub_order h h1
    obtain ⟨ws, h4, h5⟩ := ih
    exact ⟨w :: ws, .cons h2 h4, .cons h3 h5⟩

theorem sized_order {ds : List (Quad R)} {g : Option R} {σ : Subst R} {items : List (ItemLayout R)} {vs : List (TypedValue R)}
    (hs : List.Forall₂ (fun (item : ItemLayout R) v => ∃ σ',
        UniqueMatch ds (σ ++ List.replicate item.intro none) (inGraph g item.dataset) σ' ∧
        SubMeaning M g item.value σ' v) items vs) :
    ∃ ws, List.Forall₂ (fun (item : ItemLayout R) v => ∃ σ',
        UniqueMatch ds (σ ++ List.replicate item.intro none) (inGraph g item.dataset) σ' ∧
        SubMeaning M' g item.value σ' v) items ws ∧ List.Forall₂ (UpToOrder reg) vs ws := by
  induction hs with
  | nil => exact ⟨[], .nil, .nil⟩
  | cons h1 _ ih =>
    obtain ⟨σ', h0, h1⟩ := h1
    obtain ⟨w, h2, h3⟩ := sub_order h h1
    obtain ⟨ws, h4, h5⟩ := ih
    exact ⟨w :: ws, .cons ⟨σ', h0, h2⟩ h4, .cons h3 h5⟩

theorem fields_order {ds : List (Quad R)} {g : Option R} {σ : Subst R} {fs : List (Value × Field R)}
    {m : List (Value × TypedValue R)} (hf : FieldsMeaning ds M g σ fs m) :
    ∃ m', FieldsMeaning ds M' g σ fs m' ∧ List.Forall₂ (fun a b => a.1 = b.1 ∧ UpToOrder reg a.2 b.2) m m' := by
  induction hf with
  | nil => exact ⟨[], .nil, .nil⟩
  | present h1 h2 _ ih =>
    obtain ⟨w, h3, h4⟩ := sub_order h h2
    obtain ⟨m', h5, h6⟩ := ih
    exact ⟨_, .present h1 h3 h5, .cons ⟨rfl, h4⟩ h6⟩
  | absent h1 h2 _ ih =>
    obtain ⟨m', h5, h6⟩ := ih
    exact ⟨_, .absent h1 h2 h5, h6⟩

theorem chain_order {ds : List (Quad R)} {g : Option R} {node : ItemLayout R} {σ : Subst R} {tail head : R}
    {vs : List (TypedValue R)} (hc : ChainMeaning ds M g node σ tail head vs) :
    ∃ ws, ChainMeaning ds M' g node σ tail head ws ∧ List.Forall₂ (UpToOrder reg) vs ws := by
  induction hc with
  | nil => exact ⟨[], .nil, .nil⟩
  | cons h1 h2 h3 h4 _ ih =>
    obtain ⟨w, h5, h6⟩ := sub_order h h3
    obtain ⟨ws, h7, h8⟩ := ih
    exact ⟨_, .cons h1 h2 h5 h4 h7, .cons h6 h8⟩

end

/-- A meaning in one order gives a meaning in another. -/
theorem layout_order {M M' : Option R → R → List R → TypedValue R → Prop} (hy : HyCtx R)
    (h : ∀ g r i v, M g r i v → ∃ w, M' g r i w ∧ UpToOrder hy.reg v w)
    (h' : ∀ g r i w, M' g r i w → ∃ v, M g r i v)
    (le : TypedValue R → TypedValue R → Bool) (htot : ∀ a b, le a b = true ∨ le b a = true)
    (htr : ∀ a b c, le a b = true → le b c = true → le a c = true)
    (g : Option R) (ref : R) (inputs : List R) (l : Layout R) (hr : hy.reg ref = some l)
    (v : TypedValue R) (hm : LayoutMeaning hy M g ref inputs v l) :
    ∃ w, LayoutMeaning (withOrder hy le) M' g ref inputs w l ∧ UpToOrder hy.reg v w := by
  cases l with
  | never => exact absurd hm (by simp [LayoutMeaning])
  | always => subst hm; exact ⟨_, rfl, .always _⟩
  | unit l => obtain ⟨hu, rfl⟩ := hm; exact ⟨_, ⟨hu, rfl⟩, .literal _⟩
  | boolean l => obtain ⟨b, hb, rfl⟩ := hm; exact ⟨_, ⟨b, hb, rfl⟩, .literal _⟩
  | number l => obtain ⟨b, hb, rfl⟩ := hm; exact ⟨_, ⟨b, hb, rfl⟩, .literal _⟩
  | byteString l => obtain ⟨b, hb, rfl⟩ := hm; exact ⟨_, ⟨b, hb, rfl⟩, .literal _⟩
  | textString l => obtain ⟨b, hb, rfl⟩ := hm; exact ⟨_, ⟨b, hb, rfl⟩, .literal _⟩
  | id l => obtain ⟨σ, r, i, h1, h2, h3, rfl⟩ := hm; exact ⟨_, ⟨σ, r, i, h1, h2, h3, rfl⟩, .literal _⟩
  | product l =>
    obtain ⟨σ, m, h1, h2, rfl⟩ := hm
    obtain ⟨m', h3, h4⟩ := fields_order h h2
    exact ⟨_, ⟨σ, m', h1, h3, rfl⟩, UpToOrder.map_of h4⟩
  | sized l =>
    obtain ⟨σ, vs, h1, h2, rfl⟩ := hm
    obtain ⟨ws, h3, h4⟩ := sized_order h h2
    exact ⟨_, ⟨σ, ws, h1, h3, rfl⟩, UpToOrder.list_of h4⟩
  | ordered l =>
    obtain ⟨σ, head, tail, vs, h1, hh, ht, h2, rfl⟩ := hm
    obtain ⟨ws, h3, h4⟩ := chain_order h h2
    exact ⟨_, ⟨σ, head, tail, ws, h1, hh, ht, h3, rfl⟩, UpToOrder.list_of h4⟩
  | unordered l =>
    obtain ⟨σ, ms, values, items, h1, h2, h3, h4, h5, -, rfl⟩ := hm
    obtain ⟨ws, h6, h7⟩ := items_order h h4
    have hp : (ws.mergeSort le).Perm ws := List.mergeSort_perm ws le
    have hs : (ws.mergeSort le).Pairwise (fun a b => le a b = true) :=
      List.pairwise_mergeSort (fun a b c => htr a b c) (fun a b => by simpa using htot a b) ws
    obtain ⟨vs', h8, h9⟩ := List.perm_comp_forall₂ hp h7.flip
    have h8 : List.Forall₂ (UpToOrder hy.reg) vs' (ws.mergeSort le) := h8.flip
    rw [List.forall₂_iff_zip] at h8
    exact ⟨_, ⟨σ, ms, ws, _, h1, h2, h3, h6, hp, hs, rfl⟩, .set hr (h9.trans h5.symm) h8.1 fun e he => h8.2 he⟩
  | sum l =>
    obtain ⟨σ, i, variant, v, h1, h2, h3, ⟨σ', h4, h5⟩, h6, rfl⟩ := hm
    obtain ⟨w, h7, h8⟩ := sub_order h h5
    refine ⟨_, ⟨σ, i, variant, w, h1, h2, h3, ⟨σ', h4, h7⟩, ?_, rfl⟩, .variant h8⟩
    rintro j y w' hj ⟨τ, h9, ins, g', h10, h11, h12⟩
    obtain ⟨v', hv'⟩ := h' _ _ _ _ h12
    exact h6 j y v' hj ⟨τ, h9, ins, g', h10, h11, hv'⟩

theorem meaning_order (hy : HyCtx R)
    (le₁ le₂ : TypedValue R → TypedValue R → Bool)
    (htot₁ : ∀ a b, le₁ a b = true ∨ le₁ b a = true) (htr₁ : ∀ a b c, le₁ a b = true → le₁ b c = true → le₁ a c = true)
    (htot₂ : ∀ a b, le₂ a b = true ∨ le₂ b a = true) (htr₂ : ∀ a b c, le₂ a b = true → le₂ b c = true → le₂ a c = true)
    (n : Nat) (g : Option R) (ref : R) (inputs : List R) :
    (∀ v, Meaning (withOrder hy le₁) n g ref inputs v →
      ∃ w, Meaning (withOrder hy le₂) n g ref inputs w ∧ UpToOrder hy.reg v w) ∧
    (∀ v, Meaning (withOrder hy le₂) n g ref inputs v →
      ∃ w, Meaning (withOrder hy le₁) n g ref inputs w ∧ UpToOrder hy.reg v w) := by
  induction n generalizing g ref inputs with
  | zero => exact ⟨fun _ h => absurd h (by simp [Meaning]), fun _ h => absurd h (by simp [Meaning])⟩
  | succ n ih =>
    constructor
    · rintro v ⟨l, hr, hi, hm⟩
      obtain ⟨w, h1, h2⟩ := layout_order (withOrder hy le₁) (fun g r i => (ih g r i).1)
        (fun g r i w hw => let ⟨v, hv, _⟩ := (ih g r i).2 w hw; ⟨v, hv⟩) le₂ htot₂ htr₂ g ref inputs l hr v hm
      exact ⟨w, ⟨l, hr, hi, h1⟩, h2⟩
    · rintro v ⟨l, hr, hi, hm⟩
      obtain ⟨w, h1, h2⟩ := layout_order (withOrder hy le₂) (fun g r i => (ih g r i).2)
        (fun g r i w hw => let ⟨v, hv, _⟩ := (ih g r i).1 w hw; ⟨v, hv⟩) le₁ htot₁ htr₁ g ref inputs l hr v hm
      exact ⟨w, ⟨l, hr, hi, h1⟩, h2⟩

/-- Without unordered layouts, trees that are equal up to the order of unordered lists are equal. -/
theorem UpToOrder.eq_of_ordered {reg : Registry R} (hno : ∀ ref l, reg ref ≠ some (.unordered l)) {v w : TypedValue R}
    (h : UpToOrder reg v w) : v = w := by
  induction h with
  | literal l => rfl
  | always v => rfl
  | variant _ ih => rw [ih]
  | @map m m' ref h1 _ ih =>
    congr 1
    clear * - h1 ih
    induction m generalizing m' with
    | nil => cases m' with
      | nil => rfl
      | cons => simp at h1
    | cons e m ihm =>
      cases m' with
      | nil => simp at h1
      | cons e' m' =>
        simp only [List.map_cons, List.cons.injEq] at h1
        rw [ihm h1.2 fun p hp => ih p (by simp [hp])]
        congr 1
        exact Prod.ext h1.1 (ih (e, e') (by simp))
  | @list vs ws ref h1 _ ih =>
    congr 1
    clear * - h1 ih
    induction vs generalizing ws with
    | nil => cases ws with
      | nil => rfl
      | cons => simp at h1
    | cons e m ihm =>
      cases ws with
      | nil => simp at h1
      | cons e' ws =>
        simp only [List.length_cons, Nat.add_right_cancel_iff] at h1
        rw [ihm h1 fun p hp => ih p (by simp [hp])]
        congr 1
        exact ih (e, e') (by simp)
  | set h1 => exact absurd h1 (hno _ _)

end Derived

end Verif
