import Verif.DehydrateLemmas

/-! # A larger bound does not change the result of dehydration, nor the state it leaves -/

set_option linter.unusedSectionVars false
set_option linter.unusedSimpArgs false

namespace Verif

/-- `x` is exhausted, or agrees with `y`. -/
def DeM.Le {α : Type} (x y : DeM α) : Prop := ∀ s, (x s).1 = .fuel ∨ x s = y s

namespace Dehydrate

theorem le_refl {α : Type} (x : DeM α) : x.Le x := fun _ => .inr rfl

theorem le_bind {α β : Type} {x y : DeM α} {f g : α → DeM β} (h : x.Le y) (hf : ∀ a, (f a).Le (g a)) :
    (x.bind f).Le (y.bind g) := by
  intro s
  unfold DeM.bind
  rcases h s with h | h
  · rcases hx : x s with ⟨a | e | _ | _, s'⟩ <;> rw [hx] at h <;> simp_all
  · rw [← h]
    rcases hx : x s with ⟨a | e | _ | _, s'⟩
    · exact hf a s'
    all_goals exact .inr rfl

/-- What is assumed of the recursive calls. -/
def RecLe (r r' : Rec) : Prop := ∀ v g ref ins, (r v g ref ins).Le (r' v g ref ins)

variable {r r' : Rec} (hr : RecLe r r')

include hr

theorem le_subValue (graph : Option IRes) (fmt : ValueFormat Term) (env : Env IRes) (v : Value) :
    (subValue r graph fmt env v).Le (subValue r' graph fmt env v) :=
  le_bind (le_refl _) fun _ => le_bind (le_refl _) fun _ => hr _ _ _ _

theorem le_variants (graph : Option IRes) (env : Env IRes) (v : Value) (vs : List (Variant Term))
    (sel : Option (List (Quad IRes))) : (variants r graph env v vs sel).Le (variants r' graph env v vs sel) := by
  induction vs generalizing sel with
  | nil => cases sel <;> exact le_refl _
  | cons x vs ih =>
    unfold variants
    refine le_bind (le_refl _) fun venv => le_bind (le_refl _) fun quads => fun s => ?_
    rcases le_subValue hr graph x.value venv v s with h | h
    · rcases hx : subValue r graph x.value venv v s with ⟨a | e | _ | _, s'⟩ <;> rw [hx] at h <;> simp_all
    · rw [← h]
      rcases hx : subValue r graph x.value venv v s with ⟨a | e | _ | _, s'⟩
      · cases sel with
        | none => exact ih _ s'
        | some _ => exact .inr rfl
      · exact ih _ s'
      all_goals exact .inr rfl

theorem le_entries (graph : Option IRes) (env : Env IRes) (fields : List (Value × Field Term))
    (m : List (Value × Value)) : (entries r graph env fields m).Le (entries r' graph env fields m) := by
  induction m with
  | nil => exact le_refl _
  | cons e m ih =>
    obtain ⟨key, v⟩ := e
    unfold entries
    split
    · exact le_bind (le_refl _) fun _ => le_bind (le_refl _) fun _ => le_bind (le_subValue hr _ _ _ _) fun _ => ih
    · exact le_refl _

theorem le_items (graph : Option IRes) (env : Env IRes) (item : ItemLayout Term) (vs : List Value) :
    (items r graph env item vs).Le (items r' graph env item vs) := by
  induction vs with
  | nil => exact le_refl _
  | cons v vs ih =>
    exact le_bind (le_refl _) fun _ => le_bind (le_refl _) fun _ => le_bind (le_subValue hr _ _ _ _) fun _ => ih

theorem le_nodes (graph : Option IRes) (env : Env IRes) (node : ItemLayout Term) (tail : Pattern Term) (head : IRes)
    (vs : List Value) : (nodes r graph env node tail head vs).Le (nodes r' graph env node tail head vs) := by
  induction vs generalizing head with
  | nil => exact le_refl _
  | cons v vs ih =>
    exact le_bind (le_refl _) fun _ => le_bind (le_refl _) fun _ => le_bind (le_refl _) fun _ =>
      le_bind (le_subValue hr _ _ _ _) fun _ => ih _

theorem le_sizedItems (graph : Option IRes) (env : Env IRes) (vs : List Value) (is : List (ItemLayout Term)) :
    (sizedItems r graph env vs is).Le (sizedItems r' graph env vs is) := by
  induction vs generalizing is with
  | nil => cases is <;> exact le_refl _
  | cons v vs ih =>
    cases is with
    | nil => exact le_refl _
    | cons i is =>
      exact le_bind (le_refl _) fun _ => le_bind (le_refl _) fun _ => le_bind (le_subValue hr _ _ _ _) fun _ => ih is

theorem le_layout (c : DeCtx) (v : Value) (graph : Option IRes) (ref : Term) (inputs : List IRes) (l : Layout Term) :
    (layout c r v graph ref inputs l).Le (layout c r' v graph ref inputs l) := by
  cases l with
  | sum l => exact le_bind (le_refl _) fun _ => le_bind (le_refl _) fun _ => le_variants hr _ _ _ _ _
  | product l =>
    simp only [layout]
    split
    · exact le_bind (le_refl _) fun _ => le_bind (le_refl _) fun _ => le_bind (le_entries hr _ _ _ _) fun _ => le_refl _
    · exact le_refl _
  | unordered l =>
    simp only [layout]
    split
    · exact le_bind (le_refl _) fun _ => le_bind (le_refl _) fun _ => le_items hr _ _ _ _
    · exact le_refl _
  | ordered l =>
    simp only [layout]
    split
    · exact le_bind (le_refl _) fun _ => le_bind (le_refl _) fun _ => le_bind (le_refl _) fun _ => le_nodes hr _ _ _ _ _ _
    · exact le_refl _
  | sized l =>
    simp only [layout]
    split
    · exact le_bind (le_refl _) fun _ => le_bind (le_refl _) fun _ => le_sizedItems hr _ _ _ _
    · exact le_refl _
  | _ => exact le_refl _

omit hr

theorem le_dehydrateWith (c : DeCtx) (n : Nat) : RecLe (dehydrateWith c n) (dehydrateWith c (n + 1)) := by
  induction n with
  | zero => intro v g ref ins s; exact .inl rfl
  | succ n ih =>
    intro v g ref ins
    rw [dehydrateWith, dehydrateWith]
    split
    · exact le_refl _
    · split
      · exact le_refl _
      · exact le_layout ih _ _ _ _ _ _

/-- A larger bound changes neither the outcome nor the state, unless the smaller one was exhausted. -/
theorem dehydrateWith_mono (c : DeCtx) {n m : Nat} (h : n ≤ m) : RecLe (dehydrateWith c n) (dehydrateWith c m) := by
  induction h with
  | refl => exact fun _ _ _ _ => le_refl _
  | step _ ih =>
    intro v g ref ins s
    rcases ih v g ref ins s with h1 | h1
    · exact .inl h1
    · rcases le_dehydrateWith c _ v g ref ins s with h2 | h2
      · exact .inl (by rw [h1, h2])
      · exact .inr (by rw [h1, h2])

/-- The same for `dehydrate`. -/
theorem dehydrate_mono (c : DeCtx) {n m : Nat} (h : n ≤ m) (v : Value) (ref : Term) (o : DeOptions) :
    dehydrate c n v ref o = .fuel ∨ dehydrate c n v ref o = dehydrate c m v ref o := by
  unfold dehydrate
  cases c.reg ref with
  | none => exact .inr rfl
  | some l =>
    simp only
    rcases dehydrateWith_mono c h v none ref
      ((List.range (l.inputCount.getD (o.inputCount.getD 1))).map .input) ⟨[], [], 0⟩ with h1 | h1
    · rcases hx : dehydrateWith c n v none ref
        ((List.range (l.inputCount.getD (o.inputCount.getD 1))).map .input) ⟨[], [], 0⟩ with ⟨a | e | _ | _, s'⟩
        <;> rw [hx] at h1 <;> simp_all
    · rw [← h1]; exact .inr rfl

end Dehydrate

end Verif
