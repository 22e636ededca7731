import Verif.RenameKeysSpec

/-!
# Other keys in records

Helper lemmas for C107. No further code is modelled.
-/

set_option linter.unusedSectionVars false
set_option linter.unusedSimpArgs false

namespace Verif

theorem Value.renameMap_eq (f : Value → Value) (m : List (Value × Value)) :
    Value.renameMap f m = m.map fun e => (f e.1, e.2.renameKeys f) := by
  induction m with
  | nil => rfl
  | cons e m ih => obtain ⟨k, v⟩ := e; simp [Value.renameMap, ih]

theorem Value.renameList_eq (f : Value → Value) (l : List Value) : Value.renameList f l = l.map (Value.renameKeys f) := by
  induction l with
  | nil => rfl
  | cons v l ih => simp [Value.renameList, ih]

theorem TypedValue.renameMap_eq {R : Type _} (f : Value → Value) (m : List (Value × TypedValue R)) :
    TypedValue.renameMap f m = m.map fun e => (f e.1, e.2.renameKeys f) := by
  induction m with
  | nil => rfl
  | cons e m ih => obtain ⟨k, v⟩ := e; simp [TypedValue.renameMap, ih]

theorem TypedValue.renameList_eq {R : Type _} (f : Value → Value) (l : List (TypedValue R)) :
    TypedValue.renameList f l = l.map (TypedValue.renameKeys f) := by
  induction l with
  | nil => rfl
  | cons v l ih => simp [TypedValue.renameList, ih]

mutual
theorem Value.renameKeys_inj {f : Value → Value} (hf : Function.Injective f) : ∀ v w : Value, v.renameKeys f = w.renameKeys f → v = w
  | .literal _, .literal _, h => by simpa [Value.renameKeys] using h
  | .map m, .map m', h => by
    simp only [Value.renameKeys, Value.map.injEq] at h ⊢
    exact Value.renameMap_inj hf m m' h
  | .list l, .list l', h => by
    simp only [Value.renameKeys, Value.list.injEq] at h ⊢
    exact Value.renameList_inj hf l l' h
  | .literal _, .map _, h => by simp [Value.renameKeys] at h
  | .literal _, .list _, h => by simp [Value.renameKeys] at h
  | .map _, .literal _, h => by simp [Value.renameKeys] at h
  | .map _, .list _, h => by simp [Value.renameKeys] at h
  | .list _, .literal _, h => by simp [Value.renameKeys] at h
  | .list _, .map _, h => by simp [Value.renameKeys] at h

theorem Value.renameMap_inj {f : Value → Value} (hf : Function.Injective f) :
    ∀ m m' : List (Value × Value), Value.renameMap f m = Value.renameMap f m' → m = m'
  | [], [], _ => rfl
  | [], (_, _) :: _, h => by simp [Value.renameMap] at h
  | (_, _) :: _, [], h => by simp [Value.renameMap] at h
  | (k, v) :: m, (k', v') :: m', h => by
    simp only [Value.renameMap, List.cons.injEq, Prod.mk.injEq] at h ⊢
    exact ⟨⟨hf h.1.1, Value.renameKeys_inj hf v v' h.1.2⟩, Value.renameMap_inj hf m m' h.2⟩

theorem Value.renameList_inj {f : Value → Value} (hf : Function.Injective f) :
    ∀ l l' : List Value, Value.renameList f l = Value.renameList f l' → l = l'
  | [], [], _ => rfl
  | [], _ :: _, h => by simp [Value.renameList] at h
  | _ :: _, [], h => by simp [Value.renameList] at h
  | v :: l, v' :: l', h => by
    simp only [Value.renameList, List.cons.injEq] at h ⊢
    exact ⟨Value.renameKeys_inj hf v v' h.1, Value.renameList_inj hf l l' h.2⟩
end

mutual
theorem Value.renameKeys_twice {f h : Value → Value} (hf : ∀ k, h (f k) = k) : ∀ v : Value, (v.renameKeys f).renameKeys h = v
  | .literal _ => rfl
  | .map m => by simp only [Value.renameKeys, Value.renameMap_twice hf m]
  | .list l => by simp only [Value.renameKeys, Value.renameList_twice hf l]

theorem Value.renameMap_twice {f h : Value → Value} (hf : ∀ k, h (f k) = k) :
    ∀ m : List (Value × Value), Value.renameMap h (Value.renameMap f m) = m
  | [] => rfl
  | (k, v) :: m => by simp only [Value.renameMap, hf, Value.renameKeys_twice hf v, Value.renameMap_twice hf m]

theorem Value.renameList_twice {f h : Value → Value} (hf : ∀ k, h (f k) = k) :
    ∀ l : List Value, Value.renameList h (Value.renameList f l) = l
  | [] => rfl
  | v :: l => by simp only [Value.renameList, Value.renameKeys_twice hf v, Value.renameList_twice hf l]
end

theorem TypedLiteral.renameKeys_twice {R : Type _} {f h : Value → Value} (hf : ∀ k, h (f k) = k) (l : TypedLiteral R) :
    (l.renameKeys f).renameKeys h = l := by
  cases l <;> simp [TypedLiteral.renameKeys, Value.renameKeys_twice hf]

mutual
theorem TypedValue.renameKeys_twice {R : Type _} {f h : Value → Value} (hf : ∀ k, h (f k) = k) :
    ∀ v : TypedValue R, (v.renameKeys f).renameKeys h = v
  | .literal l => by simp only [TypedValue.renameKeys, TypedLiteral.renameKeys_twice hf]
  | .variant v _ _ => by simp only [TypedValue.renameKeys, TypedValue.renameKeys_twice hf v]
  | .map m _ => by simp only [TypedValue.renameKeys, TypedValue.renameMap_twice hf m]
  | .list l _ => by simp only [TypedValue.renameKeys, TypedValue.renameList_twice hf l]
  | .always v => by simp only [TypedValue.renameKeys, Value.renameKeys_twice hf v]

theorem TypedValue.renameMap_twice {R : Type _} {f h : Value → Value} (hf : ∀ k, h (f k) = k) :
    ∀ m : List (Value × TypedValue R), TypedValue.renameMap h (TypedValue.renameMap f m) = m
  | [] => rfl
  | (k, v) :: m => by simp only [TypedValue.renameMap, hf, TypedValue.renameKeys_twice hf v, TypedValue.renameMap_twice hf m]

theorem TypedValue.renameList_twice {R : Type _} {f h : Value → Value} (hf : ∀ k, h (f k) = k) :
    ∀ l : List (TypedValue R), TypedValue.renameList h (TypedValue.renameList f l) = l
  | [] => rfl
  | v :: l => by simp only [TypedValue.renameList, TypedValue.renameKeys_twice hf v, TypedValue.renameList_twice hf l]
end

mutual
theorem TypedValue.untype_renameKeys {R : Type _} (f : Value → Value) : ∀ v : TypedValue R, (v.renameKeys f).untype = v.untype.renameKeys f
  | .literal l => by cases l <;> rfl
  | .variant v _ _ => by simp only [TypedValue.renameKeys, TypedValue.untype, TypedValue.untype_renameKeys f v]
  | .map m _ => by simp only [TypedValue.renameKeys, TypedValue.untype, Value.renameKeys, TypedValue.untypeMap_renameMap f m]
  | .list l _ => by simp only [TypedValue.renameKeys, TypedValue.untype, Value.renameKeys, TypedValue.untypeList_renameList f l]
  | .always _ => rfl

theorem TypedValue.untypeMap_renameMap {R : Type _} (f : Value → Value) :
    ∀ m : List (Value × TypedValue R), TypedValue.untypeMap (TypedValue.renameMap f m) = Value.renameMap f (TypedValue.untypeMap m)
  | [] => rfl
  | (k, v) :: m => by
    simp only [TypedValue.renameMap, TypedValue.untypeMap, Value.renameMap, TypedValue.untype_renameKeys f v,
      TypedValue.untypeMap_renameMap f m]

theorem TypedValue.untypeList_renameList {R : Type _} (f : Value → Value) :
    ∀ l : List (TypedValue R), TypedValue.untypeList (TypedValue.renameList f l) = Value.renameList f (TypedValue.untypeList l)
  | [] => rfl
  | v :: l => by
    simp only [TypedValue.renameList, TypedValue.untypeList, Value.renameList, TypedValue.untype_renameKeys f v,
      TypedValue.untypeList_renameList f l]
end

namespace Out.Similar

variable {ε α β γ δ : Type _}

theorem same (o : Out ε α) : Similar Eq o o := by
  cases o with
  | ok => exact .ok rfl
  | err => exact .err _ _
  | panic => exact .panic
  | fuel => exact .fuel

theorem bind {P : α → β → Prop} {Q : γ → δ → Prop} {a : Out ε α} {b : Out ε β} {k : α → Out ε γ} {k' : β → Out ε δ} (h : Similar P a b)
    (hk : ∀ x y, P x y → Similar Q (k x) (k' y)) : Similar Q (a.bind k) (b.bind k') := by
  cases h with
  | ok h => exact hk _ _ h
  | err => exact .err _ _
  | panic => exact .panic
  | fuel => exact .fuel

theorem bindSame {Q : γ → δ → Prop} {a : Out ε α} {k : α → Out ε γ} {k' : α → Out ε δ} (hk : ∀ x, Similar Q (k x) (k' x)) :
    Similar Q (a.bind k) (a.bind k') := (same a).bind fun x y h => h ▸ hk x

theorem mapErr {ε' : Type _} (a : Out ε' α) (f f' : ε' → ε) : Similar Eq (a.mapErr f) (a.mapErr f') := by
  cases a with
  | ok => exact .ok rfl
  | err => exact .err _ _
  | panic => exact .panic
  | fuel => exact .fuel

end Out.Similar

namespace Hydrate

variable {R : Type _} [DecidableEq R] {c : HyCtx R} {f : Value → Value} {rec rec' : Rec R} {g : Option R} {ref : R} {σ : Subst R}
  {reg' : Registry R} {le' : TypedValue R → TypedValue R → Bool}

/-- The context with other layouts. -/
abbrev withKeys (c : HyCtx R) (reg' : Registry R) (le' : TypedValue R → TypedValue R → Bool) : HyCtx R := { c with reg := reg', le := le' }

variable (hrec : ∀ g r i, Out.Similar (fun a b => b = a.renameKeys f) (rec g r i) (rec' g r i))

include hrec

theorem subValue_keys (fmt : ValueFormat R) (τ : Subst R) :
    Out.Similar (fun a b => b = a.renameKeys f) (subValue rec g fmt τ) (subValue rec' g fmt τ) :=
  .bindSame fun _ => .bindSame fun _ => hrec _ _ _

theorem variants_keys (vs : List (Variant R)) (i : Nat) (sel : Option (Nat × TypedValue R)) :
    Out.Similar (fun a b => b = a.renameKeys f) (variants c rec g ref σ i vs sel)
      (variants (withKeys c reg' le') rec' g ref σ i vs (sel.map fun p => (p.1, p.2.renameKeys f))) := by
  induction vs generalizing i sel with
  | nil =>
    cases sel with
    | none => exact .panic
    | some p => exact .ok rfl
  | cons x vs ih =>
    unfold variants
    refine .bindSame fun o => ?_
    cases o with
    | none => exact ih _ _
    | some τ =>
      dsimp only
      have h := subValue_keys (g := g) hrec x.value τ
      revert h
      generalize subValue rec g x.value τ = a
      generalize subValue rec' g x.value τ = b
      intro h
      cases h with
      | @ok a b h =>
        subst h
        cases sel with
        | none => exact ih _ (some (i, a))
        | some _ => exact .panic
      | err => exact ih _ _
      | panic => exact .panic
      | fuel => exact .fuel

theorem fields_keys (fs : List (Value × Field R)) :
    Out.Similar (fun a b => b = a.map fun e => (f e.1, e.2.renameKeys f)) (fields c rec g ref σ fs)
      (fields (withKeys c reg' le') rec' g ref σ (fs.map fun x => (f x.1, x.2))) := by
  induction fs with
  | nil => exact .ok rfl
  | cons e fs ih =>
    obtain ⟨k, x⟩ := e
    rw [List.map_cons]
    unfold fields
    refine (Out.Similar.mapErr _ _ _).bind ?_
    rintro o _ rfl
    cases o with
    | some τ =>
      refine (subValue_keys hrec x.value τ).bind fun v v' hv => ih.bind fun r r' hr => .ok ?_
      rw [hv, hr]
      rfl
    | none =>
      dsimp only
      split
      · exact .err _ _
      · exact ih

theorem nodes_keys (node : ItemLayout R) (tail : R) (n : Nat) (head : R) :
    Out.Similar (fun a b => b = a.map (TypedValue.renameKeys f)) (nodes c rec g ref node σ tail n head)
      (nodes (withKeys c reg' le') rec' g ref node σ tail n head) := by
  induction n generalizing head with
  | zero =>
    unfold nodes
    split
    · exact .ok rfl
    · exact .fuel
  | succ n ih =>
    unfold nodes
    split
    · exact .ok rfl
    · exact .bindSame fun τ => (subValue_keys hrec node.value τ).bind fun v v' hv => .bindSame fun h =>
        (ih h).bind fun r r' hr => .ok (by rw [hv, hr]; rfl)

theorem sizedItems_keys (is : List (ItemLayout R)) (k : Nat) :
    Out.Similar (fun a b => b = a.map (TypedValue.renameKeys f)) (sizedItems c rec g ref σ k is)
      (sizedItems (withKeys c reg' le') rec' g ref σ k is) := by
  induction is generalizing k with
  | nil => exact .ok rfl
  | cons item is ih =>
    unfold sizedItems
    exact .bindSame fun τ => (subValue_keys hrec item.value τ).bind fun v v' hv => (ih _).bind fun r r' hr => .ok (by rw [hv, hr]; rfl)

theorem unorderedItems_keys (fmt : ValueFormat R) (n : Nat) (st : Matching.Stack R) :
    Out.Similar (fun a b => b = a.map (TypedValue.renameKeys f)) (unorderedItems c rec g fmt n st)
      (unorderedItems (withKeys c reg' le') rec' g fmt n st) := by
  induction n generalizing st with
  | zero => exact .fuel
  | succ n ih =>
    unfold unorderedItems
    refine .bindSame fun o => ?_
    rcases o with _ | ⟨τ, st'⟩
    · exact .ok rfl
    · exact (subValue_keys hrec fmt τ).bind fun v v' hv => (ih st').bind fun r r' hr => .ok (by rw [hv, hr]; rfl)

omit hrec in
theorem sortBy_map {α β : Type _} {le : α → α → Bool} {le' : β → β → Bool} {h : α → β} (hle : ∀ a b, le' (h a) (h b) = le a b) (l : List α) :
    sortBy le' (l.map h) = (sortBy le l).map h := by
  have key : ∀ (a : α) (l : List α), insertBy le' (h a) (l.map h) = (insertBy le a l).map h := by
    intro a l
    induction l with
    | nil => rfl
    | cons b l ih =>
      simp only [List.map_cons, insertBy, hle]
      split
      · rfl
      · rw [ih]; rfl
  induction l with
  | nil => rfl
  | cons a l ih => simp only [List.map_cons, sortBy, ih, key]

omit hrec in
theorem hydrateData_keys {α : Type _} (l : DataLayout R) (inputs : List R) (parse : String → String → Out (HyError R) α)
    (mk : α → TypedLiteral R) (hmk : ∀ a, (mk a).renameKeys f = mk a) :
    Out.Similar (fun a b => b = TypedValue.renameKeys f a) ((hydrateData c g ref l inputs parse mk).map .literal)
      ((hydrateData (withKeys c reg' le') g ref l inputs parse mk).map .literal) := by
  have h : hydrateData (withKeys c reg' le') g ref l inputs parse mk = hydrateData c g ref l inputs parse mk := rfl
  rw [h]
  have hform : ∀ x, hydrateData c g ref l inputs parse mk = .ok x → x.renameKeys f = x := by
    intro x hx
    obtain ⟨_, _, hx⟩ := Out.bind_eq_ok.1 hx
    obtain ⟨_, _, hx⟩ := Out.bind_eq_ok.1 hx
    obtain ⟨o, _, hx⟩ := Out.bind_eq_ok.1 hx
    cases o with
    | none => exact nomatch hx
    | some v => cases hx; exact hmk v
  revert hform
  generalize hydrateData c g ref l inputs parse mk = o
  intro hform
  cases o with
  | ok l => exact .ok (by rw [TypedValue.renameKeys, hform l rfl])
  | err => exact .err _ _
  | panic => exact .panic
  | fuel => exact .fuel

omit hrec in
theorem hydrateId_keys (l : IdLayout R) (inputs : List R) :
    Out.Similar (fun a b => b = TypedValue.renameKeys f a) ((hydrateId c g ref l inputs).map .literal)
      ((hydrateId (withKeys c reg' le') g ref l inputs).map .literal) := by
  have h : hydrateId (withKeys c reg' le') g ref l inputs = hydrateId c g ref l inputs := rfl
  rw [h]
  have hform : ∀ x, hydrateId c g ref l inputs = .ok x → x.renameKeys f = x := by
    intro x hx
    obtain ⟨_, _, hx⟩ := Out.bind_eq_ok.1 hx
    obtain ⟨_, _, hx⟩ := Out.bind_eq_ok.1 hx
    split at hx
    · cases hx; rfl
    · exact nomatch hx
  revert hform
  generalize hydrateId c g ref l inputs = o
  intro hform
  cases o with
  | ok l => exact .ok (by rw [TypedValue.renameKeys, hform l rfl])
  | err => exact .err _ _
  | panic => exact .panic
  | fuel => exact .fuel

theorem layout_keys (hle : ∀ a b, le' (a.renameKeys f) (b.renameKeys f) = c.le a b) (n : Nat) (inputs : List R) (l : Layout R) :
    Out.Similar (fun a b => b = a.renameKeys f) (layout c rec n g ref inputs l)
      (layout (withKeys c reg' le') rec' n g ref inputs (l.renameKeys f)) := by
  cases l with
  | never => exact .err _ _
  | unit l => exact .bindSame fun _ => .ok rfl
  | boolean l => exact hydrateData_keys _ _ _ _ fun _ => rfl
  | number l => exact hydrateData_keys _ _ _ _ fun _ => rfl
  | byteString l => exact hydrateData_keys _ _ _ _ fun _ => rfl
  | textString l => exact hydrateData_keys _ _ _ _ fun _ => rfl
  | id l => exact hydrateId_keys _ _
  | sum l => exact .bindSame fun σ => variants_keys hrec l.variants 0 none
  | product l =>
    exact .bindSame fun σ => (fields_keys hrec l.fields).bind fun r r' hr => .ok (by
      rw [hr, TypedValue.renameKeys, TypedValue.renameMap_eq])
  | unordered l =>
    exact .bindSame fun σ => (unorderedItems_keys hrec _ _ _).bind fun r r' hr => .ok (by
      rw [hr, TypedValue.renameKeys, TypedValue.renameList_eq, sortBy_map hle])
  | ordered l =>
    exact .bindSame fun σ => .bindSame fun _ => .bindSame fun _ => (nodes_keys hrec _ _ _ _).bind fun r r' hr => .ok (by
      rw [hr, TypedValue.renameKeys, TypedValue.renameList_eq])
  | sized l =>
    exact .bindSame fun σ => (sizedItems_keys hrec _ _).bind fun r r' hr => .ok (by
      rw [hr, TypedValue.renameKeys, TypedValue.renameList_eq])
  | always => exact .ok rfl

omit hrec in
theorem inputCount_keys (l : Layout R) : (l.renameKeys f).inputCount = l.inputCount := by cases l <;> rfl

omit hrec in
theorem hydrate_keys (hle : ∀ a b, le' (a.renameKeys f) (b.renameKeys f) = c.le a b) (n : Nat) (g : Option R) (r : R) (inputs : List R) :
    Out.Similar (fun a b => b = a.renameKeys f) (hydrate c n g r inputs) (hydrate (withKeys c (c.reg.renameKeys f) le') n g r inputs) := by
  induction n generalizing g r inputs with
  | zero => exact .fuel
  | succ n ih =>
    have hr : (withKeys c (c.reg.renameKeys f) le').reg r = (c.reg r).map (Layout.renameKeys f) := rfl
    unfold hydrate
    rw [hr]
    cases c.reg r with
    | none => exact .err _ _
    | some l =>
      dsimp only [Option.map_some]
      rw [inputCount_keys]
      split
      · exact .err _ _
      · exact layout_keys ih hle n inputs l

end Hydrate

/-- The computations have the same effects, and similar results. -/
def DeM.Similar {α : Type} (x y : DeM α) : Prop := ∀ s, Out.Similar Eq (x s).1 (y s).1 ∧ (x s).2 = (y s).2

namespace DeM.Similar

theorem same {α : Type} (x : DeM α) : Similar x x := fun s => ⟨Out.Similar.same _, rfl⟩

theorem fail {α : Type} (e e' : DeError) : Similar (DeM.fail e : DeM α) (DeM.fail e') := fun _ => ⟨.err _ _, rfl⟩

theorem bind {α β : Type} {x y : DeM α} {k k' : α → DeM β} (h : Similar x y) (hk : ∀ a, Similar (k a) (k' a)) :
    Similar (x.bind k) (y.bind k') := by
  intro s
  obtain ⟨h1, h2⟩ := h s
  unfold DeM.bind
  revert h1 h2
  rcases x s with ⟨o, s1⟩
  rcases y s with ⟨o', s2⟩
  intro h1 h2
  dsimp only at h1 h2
  subst h2
  cases h1 with
  | ok h => subst h; exact hk _ s1
  | err => exact ⟨.err _ _, rfl⟩
  | panic => exact ⟨.panic, rfl⟩
  | fuel => exact ⟨.fuel, rfl⟩

theorem bindSame {α β : Type} {x : DeM α} {k k' : α → DeM β} (hk : ∀ a, Similar (k a) (k' a)) : Similar (x.bind k) (x.bind k') :=
  (same x).bind hk

end DeM.Similar

namespace Dehydrate

variable {f : Value → Value} {rec rec' : Rec} {g : Option IRes}

section

variable (hrec : ∀ v g r i, DeM.Similar (rec v g r i) (rec' (v.renameKeys f) g r i))

include hrec

theorem subValue_keys (fmt : ValueFormat Term) (env : Env IRes) (v : Value) :
    DeM.Similar (subValue rec g fmt env v) (subValue rec' g fmt env (v.renameKeys f)) :=
  .bindSame fun _ => .bindSame fun _ => hrec _ _ _ _

theorem variants_keys (env : Env IRes) (v : Value) (vs : List (Variant Term)) (sel : Option (List (Quad IRes))) :
    DeM.Similar (variants rec g env v vs sel) (variants rec' g env (v.renameKeys f) vs sel) := by
  induction vs generalizing sel with
  | nil => cases sel <;> exact .same _
  | cons x vs ih =>
    unfold variants
    refine .bindSame fun venv => .bindSame fun quads => ?_
    intro s
    obtain ⟨h1, h2⟩ := subValue_keys (g := g) hrec x.value venv v s
    dsimp only
    revert h1 h2
    rcases subValue rec g x.value venv v s with ⟨o, s1⟩
    rcases subValue rec' g x.value venv (v.renameKeys f) s with ⟨o', s2⟩
    intro h1 h2
    dsimp only at h1 h2
    subst h2
    cases h1 with
    | ok h =>
      cases sel with
      | none => exact ih _ s1
      | some _ => exact ⟨.err _ _, rfl⟩
    | err => exact ih _ s1
    | panic => exact ⟨.panic, rfl⟩
    | fuel => exact ⟨.fuel, rfl⟩

omit hrec in
theorem lookup_keys (hf : Function.Injective f) (k : Value) (fs : List (Value × Field Term)) :
    lookup (f k) (fs.map fun x => (f x.1, x.2)) = lookup k fs := by
  induction fs with
  | nil => rfl
  | cons e fs ih =>
    unfold lookup at ih ⊢
    rw [List.map_cons, List.find?_cons, List.find?_cons]
    by_cases h : e.1 = k
    · simp [h]
    · have h' : f e.1 ≠ f k := fun e => h (hf e)
      simp only [beq_eq_false_iff_ne.2 h, beq_eq_false_iff_ne.2 h']
      exact ih

theorem entries_keys (hf : Function.Injective f) (env : Env IRes) (fs : List (Value × Field Term)) (m : List (Value × Value)) :
    DeM.Similar (entries rec g env fs m) (entries rec' g env (fs.map fun x => (f x.1, x.2)) (Value.renameMap f m)) := by
  induction m with
  | nil => exact .same _
  | cons e m ih =>
    obtain ⟨k, v⟩ := e
    rw [Value.renameMap]
    unfold entries
    rw [lookup_keys hf]
    cases lookup k fs with
    | none => exact .fail _ _
    | some x => exact .bindSame fun fenv => .bindSame fun _ => (subValue_keys hrec _ _ _).bind fun _ => ih

omit hrec in
theorem requireKeys_keys (hf : Function.Injective f) (ref : Term) (m : List (Value × Value)) (fs : List (Value × Field Term)) :
    DeM.Similar (requireKeys ref m fs) (requireKeys ref (Value.renameMap f m) (fs.map fun x => (f x.1, x.2))) := by
  induction fs with
  | nil => exact .same _
  | cons e fs ih =>
    obtain ⟨k, x⟩ := e
    rw [List.map_cons]
    unfold requireKeys
    have h : ((Value.renameMap f m).any fun e => e.1 == f k) = m.any fun e => e.1 == k := by
      rw [Value.renameMap_eq, List.any_map]
      congr 1
      funext e
      simp only [Function.comp]
      by_cases h : e.1 = k
      · simp [h]
      · have h' : f e.1 ≠ f k := fun e => h (hf e)
        rw [beq_eq_false_iff_ne.2 h, beq_eq_false_iff_ne.2 h']
    rw [h]
    split
    · exact .fail _ _
    · exact ih

theorem items_keys (env : Env IRes) (item : ItemLayout Term) (vs : List Value) :
    DeM.Similar (items rec g env item vs) (items rec' g env item (vs.map (Value.renameKeys f))) := by
  induction vs with
  | nil => exact .same _
  | cons v vs ih => exact .bindSame fun _ => .bindSame fun _ => (subValue_keys hrec _ _ _).bind fun _ => ih

theorem nodes_keys (env : Env IRes) (node : ItemLayout Term) (tail : Pattern Term) (head : IRes) (vs : List Value) :
    DeM.Similar (nodes rec g env node tail head vs) (nodes rec' g env node tail head (vs.map (Value.renameKeys f))) := by
  induction vs generalizing head with
  | nil => exact .same _
  | cons v vs ih =>
    rw [List.map_cons]
    unfold nodes
    have h : (vs.map (Value.renameKeys f)).isEmpty = vs.isEmpty := by cases vs <;> rfl
    rw [h]
    exact .bindSame fun _ => .bindSame fun _ => .bindSame fun _ => (subValue_keys hrec _ _ _).bind fun _ => ih _

theorem sizedItems_keys (env : Env IRes) (vs : List Value) (is : List (ItemLayout Term)) :
    DeM.Similar (sizedItems rec g env vs is) (sizedItems rec' g env (vs.map (Value.renameKeys f)) is) := by
  induction vs generalizing is with
  | nil => cases is <;> exact .same _
  | cons v vs ih =>
    cases is with
    | nil => exact .same _
    | cons i is => exact .bindSame fun _ => .bindSame fun _ => (subValue_keys hrec _ _ _).bind fun _ => ih _

theorem layout_keys (c : DeCtx) (reg' : Registry Term) (hf : Function.Injective f) (v : Value) (ref : Term) (inputs : List IRes)
    (l : Layout Term) :
    DeM.Similar (layout c rec v g ref inputs l) (layout { c with reg := reg' } rec' (v.renameKeys f) g ref inputs (l.renameKeys f)) := by
  cases l with
  | never => exact .fail _ _
  | unit l =>
    unfold layout
    dsimp only [Layout.renameKeys]
    by_cases h : v = l.const
    · rw [if_pos h, if_pos (by rw [h])]
      exact .same _
    · rw [if_neg h, if_neg fun e => h (Value.renameKeys_inj hf _ _ e)]
      exact .fail _ _
  | sum l => exact .bindSame fun _ => .bindSame fun _ => variants_keys hrec _ _ _ _
  | product l =>
    cases v with
    | map m => exact .bindSame fun _ => .bindSame fun _ => (entries_keys hrec hf _ _ _).bind fun _ => requireKeys_keys hf _ _ _
    | _ => exact .fail _ _
  | unordered l =>
    cases v with
    | list vs =>
      rw [Value.renameKeys, Value.renameList_eq]
      exact .bindSame fun _ => .bindSame fun _ => items_keys hrec _ _ _
    | _ => exact .fail _ _
  | ordered l =>
    cases v with
    | list vs =>
      rw [Value.renameKeys, Value.renameList_eq]
      exact .bindSame fun _ => .bindSame fun _ => .bindSame fun _ => nodes_keys hrec _ _ _ _ _
    | _ => exact .fail _ _
  | sized l =>
    cases v with
    | list vs =>
      rw [Value.renameKeys, Value.renameList_eq]
      exact .bindSame fun _ => .bindSame fun _ => sizedItems_keys hrec _ _ _
    | _ => exact .fail _ _
  | always => exact .same _
  | _ =>
    cases v with
    | literal x => cases x <;> exact .same _
    | _ => exact .fail _ _

end

theorem dehydrateWith_keys (c : DeCtx) (hf : Function.Injective f) (n : Nat) (v : Value) (g : Option IRes) (r : Term) (inputs : List IRes) :
    DeM.Similar (dehydrateWith c n v g r inputs)
      (dehydrateWith { c with reg := c.reg.renameKeys f } n (v.renameKeys f) g r inputs) := by
  induction n generalizing v g r inputs with
  | zero => exact fun _ => ⟨.fuel, rfl⟩
  | succ n ih =>
    have hr : ({ c with reg := c.reg.renameKeys f } : DeCtx).reg r = (c.reg r).map (Layout.renameKeys f) := rfl
    unfold dehydrateWith
    rw [hr]
    cases c.reg r with
    | none => exact .fail _ _
    | some l =>
      dsimp only [Option.map_some]
      rw [Hydrate.inputCount_keys]
      split
      · exact .fail _ _
      · exact layout_keys ih c _ hf v r inputs l

theorem dehydrate_keys (c : DeCtx) (hf : Function.Injective f) (n : Nat) (v : Value) (r : Term) (o : DeOptions) :
    Out.Similar Eq (dehydrate c n v r o) (dehydrate { c with reg := c.reg.renameKeys f } n (v.renameKeys f) r o) := by
  have hr : ({ c with reg := c.reg.renameKeys f } : DeCtx).reg r = (c.reg r).map (Layout.renameKeys f) := rfl
  unfold dehydrate
  rw [hr]
  cases c.reg r with
  | none => exact .err _ _
  | some l =>
    dsimp only [Option.map_some]
    rw [Hydrate.inputCount_keys]
    obtain ⟨h1, h2⟩ := dehydrateWith_keys c hf n v none r ((List.range (l.inputCount.getD (o.inputCount.getD 1))).map .input) ⟨[], [], 0⟩
    revert h1 h2
    generalize dehydrateWith c n v none r ((List.range (l.inputCount.getD (o.inputCount.getD 1))).map .input) ⟨[], [], 0⟩ = a
    generalize dehydrateWith { c with reg := c.reg.renameKeys f } n (v.renameKeys f) none r
      ((List.range (l.inputCount.getD (o.inputCount.getD 1))).map .input) ⟨[], [], 0⟩ = b
    obtain ⟨a, s1⟩ := a
    obtain ⟨b, s2⟩ := b
    intro h1 h2
    dsimp only at h1 h2
    subst h2
    cases h1 with
    | ok => exact .same _
    | err => exact .err _ _
    | panic => exact .panic
    | fuel => exact .fuel

end Dehydrate

end Verif
