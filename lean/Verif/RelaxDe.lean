import Verif.RelaxSpec
import Verif.Dehydrate

/-!
# Dehydration with fewer required fields

Helper lemmas for C103. No further code is modelled.
-/

set_option linter.unusedSectionVars false
set_option linter.unusedSimpArgs false

namespace Verif

/-- If the first computation succeeds, the second one does the same. -/
def DeM.Leads {α : Type} (x y : DeM α) : Prop := ∀ s a s', x s = (.ok a, s') → y s = (.ok a, s')

namespace DeM.Leads

variable {α β : Type}

theorem same (x : DeM α) : Leads x x := fun _ _ _ h => h

theorem bind {x y : DeM α} {k k' : α → DeM β} (h : Leads x y) (hk : ∀ a, Leads (k a) (k' a)) : Leads (x.bind k) (y.bind k') := by
  intro s b s' hb
  unfold DeM.bind at hb ⊢
  rcases hx : x s with ⟨a | e | _ | _, s₁⟩ <;> rw [hx] at hb
  · rw [h s a s₁ hx]
    exact hk a s₁ b s' hb
  all_goals exact nomatch hb

theorem bindSame {x : DeM α} {k k' : α → DeM β} (hk : ∀ a, Leads (k a) (k' a)) : Leads (x.bind k) (x.bind k') := bind (same x) hk

theorem fail {e : DeError} {y : DeM α} : Leads (.fail e) y := fun _ _ _ h => nomatch h

end DeM.Leads

namespace Dehydrate

variable {c : DeCtx} {rec rec' : Rec} {g : Option IRes} {env : Env IRes} {v : Value}

variable (hrec : ∀ v g r i, DeM.Leads (rec v g r i) (rec' v g r i))

include hrec

theorem subValue_leads (fmt : ValueFormat Term) (env : Env IRes) (v : Value) :
    DeM.Leads (subValue rec g fmt env v) (subValue rec' g fmt env v) :=
  .bindSame fun _ => .bindSame fun _ => hrec _ _ _ _

omit hrec in
theorem lookup_relax {fs fs' : List (Value × Field Term)} (h : List.Forall₂ (fun a b => a.1 = b.1 ∧ a.2.Relaxed b.2) fs fs') (k : Value) :
    Option.Rel Field.Relaxed (lookup k fs) (lookup k fs') := by
  induction h with
  | nil => exact .none
  | @cons a b fs fs' hab _ ih =>
    obtain ⟨k₁, x⟩ := a
    obtain ⟨k₂, y⟩ := b
    obtain ⟨hk, hxy⟩ := hab
    dsimp only at hk hxy
    subst hk
    unfold lookup at ih ⊢
    simp only [List.find?_cons]
    cases k₁ == k with
    | true => exact .some hxy
    | false => exact ih

theorem entries_relax {fs fs' : List (Value × Field Term)} (h : List.Forall₂ (fun a b => a.1 = b.1 ∧ a.2.Relaxed b.2) fs fs')
    (m : List (Value × Value)) : DeM.Leads (entries rec g env fs m) (entries rec' g env fs' m) := by
  induction m with
  | nil => exact .same _
  | cons e m ih =>
    obtain ⟨k, w⟩ := e
    unfold entries
    have hl := lookup_relax h k
    revert hl
    generalize lookup k fs = a
    generalize lookup k fs' = b
    intro hl
    cases hl with
    | none => exact .fail
    | @some x y hxy =>
      obtain ⟨h1, h2, h3, -⟩ := hxy
      dsimp only
      rw [h1, h2, h3]
      exact .bindSame fun _ => .bindSame fun _ => (subValue_leads hrec _ _ _).bind fun _ => ih

omit hrec in
theorem requireKeys_relax {fs fs' : List (Value × Field Term)} (h : List.Forall₂ (fun a b => a.1 = b.1 ∧ a.2.Relaxed b.2) fs fs')
    (ref : Term) (m : List (Value × Value)) : DeM.Leads (requireKeys ref m fs) (requireKeys ref m fs') := by
  induction h with
  | nil => exact .same _
  | @cons a b fs fs' hab _ ih =>
    obtain ⟨k, x⟩ := a
    obtain ⟨k', y⟩ := b
    obtain ⟨hk, -, -, -, h4⟩ := hab
    dsimp only at hk h4
    subst hk
    unfold requireKeys
    by_cases hx : (x.required && !(m.any fun e => e.1 == k)) = true
    · rw [if_pos hx]
      exact .fail
    · rw [if_neg hx, if_neg]
      · exact ih
      · intro hy
        rw [Bool.and_eq_true] at hx hy
        exact hx ⟨h4 hy.1, hy.2⟩

theorem items_leads (item : ItemLayout Term) (vs : List Value) : DeM.Leads (items rec g env item vs) (items rec' g env item vs) := by
  induction vs with
  | nil => exact .same _
  | cons w vs ih =>
    unfold items
    exact .bindSame fun _ => .bindSame fun _ => (subValue_leads hrec _ _ _).bind fun _ => ih

theorem nodes_leads (node : ItemLayout Term) (tail : Pattern Term) (head : IRes) (vs : List Value) :
    DeM.Leads (nodes rec g env node tail head vs) (nodes rec' g env node tail head vs) := by
  induction vs generalizing head with
  | nil => exact .same _
  | cons w vs ih =>
    unfold nodes
    exact .bindSame fun next => .bindSame fun _ => .bindSame fun _ => (subValue_leads hrec _ _ _).bind fun _ => ih next

theorem sizedItems_leads (vs : List Value) (is : List (ItemLayout Term)) :
    DeM.Leads (sizedItems rec g env vs is) (sizedItems rec' g env vs is) := by
  induction vs generalizing is with
  | nil => cases is <;> exact .same _
  | cons w vs ih =>
    cases is with
    | nil => exact .same _
    | cons i is =>
      unfold sizedItems
      exact .bindSame fun _ => .bindSame fun _ => (subValue_leads hrec _ _ _).bind fun _ => ih is

theorem layout_relax (ref : Term) (inputs : List IRes) {l l' : Layout Term} (hl : l.Relaxed l') (hno : ∀ s, l ≠ .sum s) :
    DeM.Leads (layout c rec v g ref inputs l) (layout c rec' v g ref inputs l') := by
  have hproduct : ∀ (input k : Nat) (dataset : List (QuadPat Term)) (fs fs' : List (Value × Field Term)),
      List.Forall₂ (fun a b => a.1 = b.1 ∧ a.2.Relaxed b.2) fs fs' →
      DeM.Leads (layout c rec v g ref inputs (.product ⟨input, k, fs, dataset⟩))
        (layout c rec' v g ref inputs (.product ⟨input, k, fs', dataset⟩)) := by
    intro input k dataset fs fs' h
    simp only [layout]
    split
    · exact .bindSame fun _ => .bindSame fun _ => (entries_relax hrec h _).bind fun _ => requireKeys_relax h _ _
    · exact .fail
  cases hl with
  | product input _ dataset h => exact hproduct _ _ _ _ _ h
  | refl l =>
    cases l with
    | never => exact .same _
    | always => exact .same _
    | unit l => exact .same _
    | boolean l => exact .same _
    | number l => exact .same _
    | byteString l => exact .same _
    | textString l => exact .same _
    | id l => exact .same _
    | sum l => exact absurd rfl (hno l)
    | product l => exact hproduct _ _ _ _ _ (List.forall₂_same.2 fun a _ => ⟨rfl, rfl, rfl, rfl, id⟩)
    | unordered l =>
      simp only [layout]
      split
      · exact .bindSame fun _ => .bindSame fun _ => items_leads hrec _ _
      · exact .fail
    | ordered l =>
      simp only [layout]
      split
      · exact .bindSame fun _ => .bindSame fun _ => .bindSame fun _ => nodes_leads hrec _ _ _ _
      · exact .fail
    | sized l =>
      simp only [layout]
      split
      · exact .bindSame fun _ => .bindSame fun _ => sizedItems_leads hrec _ _
      · exact .fail

omit hrec in
theorem dehydrateWith_relax {reg' : Registry Term} (hrel : c.reg.Relaxed reg') (hno : ∀ r s, c.reg r ≠ some (.sum s)) (n : Nat) (v : Value)
    (g : Option IRes) (ref : Term) (inputs : List IRes) :
    DeM.Leads (dehydrateWith c n v g ref inputs) (dehydrateWith { c with reg := reg' } n v g ref inputs) := by
  induction n generalizing v g ref inputs with
  | zero => exact fun _ _ _ h => nomatch h
  | succ n ih =>
    unfold dehydrateWith
    dsimp only
    cases h : c.reg ref with
    | none => exact .fail
    | some l =>
      obtain ⟨l', h2, h3⟩ := hrel ref l h
      rw [h2]
      dsimp only
      have hc : l'.inputCount = l.inputCount := by cases h3 <;> rfl
      rw [hc]
      split
      · exact .fail
      · have h' := layout_relax (c := c) (v := v) (g := g) ih ref inputs h3 fun s e => hno ref s (e ▸ h)
        have he : ∀ (rec : Rec) l, layout { c with reg := reg' } rec v g ref inputs l = layout c rec v g ref inputs l := by
          intro rec l
          cases l <;> rfl
        rw [he]
        exact h'

omit hrec in
theorem dehydrate_relax {reg' : Registry Term} (hrel : c.reg.Relaxed reg') (hno : ∀ r s, c.reg r ≠ some (.sum s)) (n : Nat) (v : Value)
    (ref : Term) (o : DeOptions) (r : List (Quad Term) × List Term) (h : dehydrate c n v ref o = .ok r) :
    dehydrate { c with reg := reg' } n v ref o = .ok r := by
  unfold dehydrate at h ⊢
  dsimp only at h ⊢
  cases hr : c.reg ref with
  | none => rw [hr] at h; exact nomatch h
  | some l =>
    obtain ⟨l', h2, h3⟩ := hrel ref l hr
    have hc : l'.inputCount = l.inputCount := by cases h3 <;> rfl
    rw [hr] at h
    rw [h2]
    dsimp only at h ⊢
    rw [hc]
    rcases hx : dehydrateWith c n v none ref ((List.range (l.inputCount.getD (o.inputCount.getD 1))).map .input) ⟨[], [], 0⟩ with
      ⟨a | e | _ | _, s⟩ <;> rw [hx] at h
    · rw [dehydrateWith_relax hrel hno n v none ref _ _ _ _ hx]
      exact h
    all_goals exact nomatch h

end Dehydrate

end Verif
