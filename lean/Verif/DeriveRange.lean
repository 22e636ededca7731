import Verif.DeriveSound

/-! # The literals of what derived code reads -/

set_option linter.unusedSectionVars false
set_option linter.unusedSimpArgs false

namespace Verif.Derived

variable {R : Type} [DecidableEq R] {c : DsCtx R} {P : TypedLiteral R → Prop} {rec : Rec R}

theorem all_subValue (hrec : ∀ g r i w, rec g r i = .ok w → AllLiterals P w) {g : Option R} {f : ValueFormat R} {σ : Subst R}
    {v : TypedValue R} (h : subValue c rec g f σ = .ok v) : AllLiterals P v := by
  simp only [subValue, Out.bind_eq_ok] at h
  obtain ⟨_, _, _, _, h⟩ := h
  exact hrec _ _ _ _ h

theorem all_fields (hrec : ∀ g r i w, rec g r i = .ok w → AllLiterals P w) {g : Option R} {σ : Subst R}
    (fs : List (Value × Field R)) {vs : List (Option (TypedValue R))} (h : readFields c rec g σ fs = .ok vs) :
    ∀ v, some v ∈ vs → AllLiterals P v := by
  induction fs generalizing vs with
  | nil => injection h with h; subst h; simp
  | cons e fs ih =>
    obtain ⟨k, f⟩ := e
    simp only [readFields, Out.bind_eq_ok] at h
    obtain ⟨m, -, h⟩ := h
    cases m with
    | none =>
      simp only [Out.bind_eq_ok] at h
      obtain ⟨r, hr, h⟩ := h
      injection h with h
      subst h
      intro v hv
      simp only [List.mem_cons, reduceCtorEq, false_or] at hv
      exact ih hr v hv
    | some σ' =>
      simp only [Out.bind_eq_ok] at h
      obtain ⟨w, hw, r, hr, h⟩ := h
      injection h with h
      subst h
      intro v hv
      simp only [List.mem_cons, Option.some.injEq] at hv
      rcases hv with rfl | hv
      · exact all_subValue hrec hw
      · exact ih hr v hv

theorem all_unwrap (fs : List (Value × Field R)) (vs : List (Option (TypedValue R))) {m : List (Value × TypedValue R)}
    (h : unwrapFields fs vs = .ok m) (hv : ∀ v, some v ∈ vs → AllLiterals P v) : ∀ e ∈ m, AllLiterals P e.2 := by
  induction fs generalizing vs m with
  | nil => simp only [unwrapFields] at h; injection h with h; subst h; simp
  | cons e fs ih =>
    obtain ⟨k, f⟩ := e
    cases vs with
    | nil => simp only [unwrapFields] at h; injection h with h; subst h; simp
    | cons o vs =>
      cases o with
      | none =>
        simp only [unwrapFields] at h
        split at h
        · simp at h
        · exact ih vs h fun v hm => hv v (by simp [hm])
      | some v =>
        simp only [unwrapFields, Out.bind_eq_ok] at h
        obtain ⟨r, hr, h⟩ := h
        injection h with h
        subst h
        intro e he
        simp only [List.mem_cons] at he
        rcases he with rfl | he
        · exact hv v (by simp)
        · exact ih vs hr (fun v hm => hv v (by simp [hm])) e he

theorem all_variants (hrec : ∀ g r i w, rec g r i = .ok w → AllLiterals P w) {g : Option R} {ref : R} {σ : Subst R} {i : Nat}
    (xs : List (Variant R)) {o : Option (TypedValue R)} {v : TypedValue R} (ho : ∀ v, o = some v → AllLiterals P v)
    (h : variants c rec g ref σ i xs o = .ok v) : AllLiterals P v := by
  induction xs generalizing i o with
  | nil =>
    cases o with
    | none => simp [variants] at h
    | some w => simp only [variants] at h; injection h with h; subst h; exact ho _ rfl
  | cons x xs ih =>
    simp only [variants, Out.bind_eq_ok] at h
    obtain ⟨m, -, h⟩ := h
    cases m with
    | none => exact ih ho h
    | some σ' =>
      simp only [Out.bind_eq_ok] at h
      obtain ⟨w, hw, h⟩ := h
      split at h
      · simp at h
      · refine ih ?_ h
        rintro v ⟨⟩
        exact .variant (all_subValue hrec hw)

theorem all_unordered (hrec : ∀ g r i w, rec g r i = .ok w → AllLiterals P w) {g : Option R} {f : ValueFormat R} (n : Nat)
    {st : Matching.Stack R} {vs : List (TypedValue R)} (h : unorderedItems c rec g f n st = .ok vs) :
    ∀ v ∈ vs, AllLiterals P v := by
  induction n generalizing st vs with
  | zero => simp [unorderedItems] at h
  | succ n ih =>
    simp only [unorderedItems, Out.bind_eq_ok] at h
    obtain ⟨m, -, h⟩ := h
    rcases m with _ | ⟨σ, st'⟩
    · injection h with h; subst h; simp
    · simp only [Out.bind_eq_ok] at h
      obtain ⟨w, hw, r, hr, h⟩ := h
      injection h with h
      subst h
      intro v hv
      simp only [List.mem_cons] at hv
      rcases hv with rfl | hv
      · exact all_subValue hrec hw
      · exact ih hr v hv

theorem all_nodes (hrec : ∀ g r i w, rec g r i = .ok w → AllLiterals P w) {g : Option R} {node : ItemLayout R} {σ : Subst R}
    {tail : R} (n : Nat) {head : R} {vs : List (TypedValue R)} (h : nodes c rec g node σ tail n head = .ok vs) :
    ∀ v ∈ vs, AllLiterals P v := by
  induction n generalizing head vs with
  | zero =>
    rw [nodes] at h
    split at h
    · injection h with h; subst h; simp
    · simp at h
  | succ n ih =>
    rw [nodes] at h
    split at h
    · injection h with h; subst h; simp
    · simp only [Out.bind_eq_ok] at h
      obtain ⟨_, -, w, hw, _, -, r, hr, h⟩ := h
      injection h with h
      subst h
      intro v hv
      simp only [List.mem_cons] at hv
      rcases hv with rfl | hv
      · exact all_subValue hrec hw
      · exact ih hr v hv

theorem all_sized (hrec : ∀ g r i w, rec g r i = .ok w → AllLiterals P w) {g : Option R} {σ : Subst R}
    (is : List (ItemLayout R)) {vs : List (TypedValue R)} (h : sizedItems c rec g σ is = .ok vs) :
    ∀ v ∈ vs, AllLiterals P v := by
  induction is generalizing vs with
  | nil => injection h with h; subst h; simp
  | cons i is ih =>
    simp only [sizedItems, Out.bind_eq_ok] at h
    obtain ⟨_, -, w, hw, r, hr, h⟩ := h
    injection h with h
    subst h
    intro v hv
    simp only [List.mem_cons] at hv
    rcases hv with rfl | hv
    · exact all_subValue hrec hw
    · exact ih hr v hv

theorem scan_some {α} {parse : String → Option α} {dt : String} (ls : List RdfLit) {o : Option α} {a : α}
    (h : scan parse dt ls o = .ok (some a)) : o = some a ∨ ∃ s, parse s = some a := by
  induction ls generalizing o with
  | nil => injection h with h; exact .inl h
  | cons l ls ih =>
    simp only [scan] at h
    split at h
    · split at h
      · next v hv =>
        split at h
        · simp at h
        · rcases ih h with e | e
          · injection e with e; subst e; exact .inr ⟨_, hv⟩
          · exact .inr e
      · exact ih h
    · exact ih h

theorem scanInt_some {parse : String → Option Int} {dt : String} (ls : List RdfLit) {o : Option Int} {a : Int}
    (h : scanInt parse dt ls o = .ok (some a)) : o = some a ∨ ∃ s, parse s = some a := by
  induction ls generalizing o with
  | nil => injection h with h; exact .inl h
  | cons l ls ih =>
    simp only [scanInt] at h
    split at h
    · split at h
      · next v hv =>
        split at h
        · simp at h
        · rcases ih h with e | e
          · injection e with e; subst e; exact .inr ⟨_, hv⟩
          · exact .inr e
      · simp at h
    · exact ih h

theorem literalResult_ok {α} {ls : List RdfLit} {o : Option α} {a : α} (h : literalResult ls o = .ok a) : o = some a := by
  cases o with
  | some b => injection h with h; rw [h]
  | none => simp only [literalResult] at h; split at h <;> simp at h

theorem map_ok {ε α β} {x : Out ε α} {f : α → β} {b : β} (h : x.map f = .ok b) : ∃ a, x = .ok a ∧ f a = b := by
  cases x <;> simp [Out.map] at h
  exact ⟨_, rfl, h⟩

theorem all_data {g : Option R} {ref : R} {l : DataLayout R} {ins : List R} {v : TypedValue R}
    (hlit : ∀ s a, c.fromLiteral ref s = some a → P a) (h : data c g ref l ins = .ok v) : AllLiterals P v := by
  simp only [data, Out.bind_eq_ok] at h
  obtain ⟨_, -, r, -, o, ho, h⟩ := h
  obtain ⟨a, ha, rfl⟩ := map_ok h
  rw [literalResult_ok ha] at ho
  rcases scan_some _ ho with e | ⟨s, e⟩
  · simp at e
  · exact .literal _ (hlit _ _ e)

/-- What holds of the literals read by each literal type holds of all the literals of a tree. -/
theorem all_deserialize (hprim : ∀ ref p r a, c.prim ref = some p → primValue c ref r p = .ok a → P a)
    (hunit : ∀ v ref, P (.unit v ref)) (hid : ∀ s ref, P (.id s ref))
    (hlit : ∀ ref s a, (∃ l, c.reg ref = some l ∧ l.datatype?.isSome) → c.prim ref = none → c.fromLiteral ref s = some a → P a)
    (n : Nat) (g : Option R) (ref : R) (ins : List R) (v : TypedValue R) (h : deserialize c n g ref ins = .ok v) :
    AllLiterals P v := by
  induction n generalizing g ref ins v with
  | zero => simp [deserialize] at h
  | succ n ih =>
    simp only [deserialize] at h
    cases hp : c.prim ref with
    | some p =>
      simp only [hp, Out.bind_eq_ok] at h
      obtain ⟨r, -, h⟩ := h
      obtain ⟨a, ha, rfl⟩ := map_ok h
      exact .literal _ (hprim ref p r a hp ha)
    | none =>
      simp only [hp] at h
      cases hl : c.reg ref with
      | none => simp [hl] at h
      | some l =>
        simp only [hl] at h
        cases l with
        | never => simp [layout] at h
        | always => simp [layout] at h
        | unit l =>
          simp only [layout, Out.bind_eq_ok] at h
          obtain ⟨_, -, h⟩ := h
          injection h with h
          subst h
          exact .literal _ (hunit _ _)
        | boolean l => exact all_data (fun s a => hlit ref s a ⟨_, hl, rfl⟩ hp) h
        | number l => exact all_data (fun s a => hlit ref s a ⟨_, hl, rfl⟩ hp) h
        | byteString l => exact all_data (fun s a => hlit ref s a ⟨_, hl, rfl⟩ hp) h
        | textString l => exact all_data (fun s a => hlit ref s a ⟨_, hl, rfl⟩ hp) h
        | id l =>
          simp only [layout, Out.bind_eq_ok] at h
          obtain ⟨_, -, _, -, h⟩ := h
          obtain ⟨a, -, rfl⟩ := map_ok h
          exact .literal _ (hid _ _)
        | sum l =>
          simp only [layout, Out.bind_eq_ok] at h
          obtain ⟨_, -, h⟩ := h
          exact all_variants (fun g r i w => ih g r i w) _ (by simp) h
        | product l =>
          simp only [layout, Out.bind_eq_ok] at h
          obtain ⟨_, -, vs, hvs, m, hm, h⟩ := h
          injection h with h
          subst h
          exact .map (all_unwrap _ _ hm (all_fields (fun g r i w => ih g r i w) _ hvs))
        | unordered l =>
          simp only [layout, Out.bind_eq_ok] at h
          obtain ⟨_, -, _, -, m, hm, h⟩ := h
          injection h with h
          subst h
          exact .list (all_unordered (fun g r i w => ih g r i w) _ hm)
        | ordered l =>
          simp only [layout, Out.bind_eq_ok] at h
          obtain ⟨_, -, _, -, _, -, m, hm, h⟩ := h
          injection h with h
          subst h
          exact .list (all_nodes (fun g r i w => ih g r i w) _ hm)
        | sized l =>
          simp only [layout, Out.bind_eq_ok] at h
          obtain ⟨_, -, m, hm, h⟩ := h
          injection h with h
          subst h
          exact .list (all_sized (fun g r i w => ih g r i w) _ hm)

theorem prim_fits {ref r : R} {p : Prim} {a : TypedLiteral R} (hp : c.prim ref = some p) (h : primValue c ref r p = .ok a) :
    c.Fits a := by
  intro q ref' dt lo hi e hp'
  subst e
  cases p with
  | id => simp only [primValue] at h; obtain ⟨_, _, h⟩ := map_ok h; simp at h
  | string => simp only [primValue] at h; obtain ⟨_, _, h⟩ := map_ok h; simp at h
  | int dt' lo' hi' =>
    simp only [primValue, Out.bind_eq_ok] at h
    obtain ⟨o, ho, h⟩ := h
    obtain ⟨z, hz, h⟩ := map_ok h
    injection h with h1 h2
    subst h2
    rw [hp] at hp'
    injection hp' with hp'
    injection hp' with e1 e2 e3
    subst e1 e2 e3
    rw [literalResult_ok hz] at ho
    rcases scanInt_some _ ho with e | ⟨s, e⟩
    · simp at e
    · simp only [parseRange, Option.filter_eq_some_iff, decide_eq_true_eq] at e
      exact ⟨z, h1.symm, e.2⟩

theorem literal_fits {x : Xsd} (hx : DsLaws c x) {ref : R} {s : String} {a : TypedLiteral R}
    (hl : ∃ l, c.reg ref = some l ∧ l.datatype?.isSome) (hp : c.prim ref = none) (h : c.fromLiteral ref s = some a) :
    c.Fits a := by
  intro q ref' dt lo hi e hp'
  subst e
  obtain ⟨l, hl, hd⟩ := hl
  cases l with
  | boolean l => obtain ⟨_, _, h⟩ := hx.boolean _ _ _ _ hl h; simp at h
  | number l => obtain ⟨_, _, h⟩ := hx.number _ _ _ _ hl h; simp at h; rw [h.2, hp] at hp'; simp at hp'
  | byteString l => rw [hx.bytes _ _ _ hl] at h; simp at h
  | textString l => have := hx.text _ _ _ _ hl h; simp at this
  | _ => simp [Layout.datatype?] at hd

theorem deserialize_fits {x : Xsd} (hx : DsLaws c x) (n : Nat) (g : Option R) (ref : R) (ins : List R) (v : TypedValue R)
    (h : deserialize c n g ref ins = .ok v) : AllLiterals c.Fits v :=
  all_deserialize (fun _ _ _ _ => prim_fits) (fun _ _ _ _ _ _ _ e => by simp at e) (fun _ _ _ _ _ _ _ e => by simp at e)
    (fun _ _ _ => literal_fits hx) n g ref ins v h

end Verif.Derived
