import Verif.CliFormats
import Verif.CborLemmas
import Verif.CliLemmas

/-!
# Lemmas about formats
-/

set_option linter.unusedSectionVars false
set_option linter.unusedSimpArgs false

namespace Verif

variable {F : Type}

/-! ## What Serde can write -/

theorem asNative_total (toF64 : Rat → F) (n : Rat) :
    (n ≠ 0 ∧ ∃ x, Number.asNative toF64 n = .ok x) ∨ (n = 0 ∧ Number.asNative toF64 n = .panic) := by
  by_cases h : n = 0
  · subst h
    exact .inr ⟨rfl, by simp [Number.asNative, Number.bits, Number.firstU64Digit, Out.ofOption, Out.bind]⟩
  · have hn : n.num ≠ 0 := fun h' => h (Rat.num_eq_zero.1 h')
    refine .inl ⟨h, ?_⟩
    simp only [Number.asNative, Number.firstU64Digit, hn, if_false, Out.ofOption, Out.bind_ok]
    split
    · split
      · split <;> exact ⟨_, rfl⟩
      · split <;> exact ⟨_, rfl⟩
    · exact ⟨_, rfl⟩

mutual
theorem allNumbers_and {P Q : Rat → Prop} : (v : Value) → v.AllNumbers P → v.AllNumbers Q → v.AllNumbers fun n => P n ∧ Q n
  | .literal .unit, _, _ => .unit
  | .literal (.boolean b), _, _ => .boolean b
  | .literal (.textString b), _, _ => .textString b
  | .literal (.byteString b), _, _ => .byteString b
  | .literal (.number n), h, h' => by cases h with | number _ h => cases h' with | number _ h' => exact .number n ⟨h, h'⟩
  | .list l, h, h' => by
    cases h with | list _ h => cases h' with | list _ h' => exact .list l (allNumbers_and_items l h h')
  | .map m, h, h' => by
    cases h with
    | map _ h1 h2 =>
      cases h' with
      | map _ h3 h4 =>
        have := allNumbers_and_entries m (fun e he => ⟨h1 e he, h2 e he⟩) fun e he => ⟨h3 e he, h4 e he⟩
        exact .map m (fun e he => (this e he).1) fun e he => (this e he).2

theorem allNumbers_and_items {P Q : Rat → Prop} : (l : List Value) → (∀ v ∈ l, v.AllNumbers P) → (∀ v ∈ l, v.AllNumbers Q) →
    ∀ v ∈ l, v.AllNumbers fun n => P n ∧ Q n
  | [], _, _ => by simp
  | v :: l, h, h' => List.forall_mem_cons.2 ⟨allNumbers_and v (h v (by simp)) (h' v (by simp)),
      allNumbers_and_items l (fun v hv => h v (by simp [hv])) (fun v hv => h' v (by simp [hv]))⟩

theorem allNumbers_and_entries {P Q : Rat → Prop} : (m : List (Value × Value)) →
    (∀ e ∈ m, e.1.AllNumbers P ∧ e.2.AllNumbers P) → (∀ e ∈ m, e.1.AllNumbers Q ∧ e.2.AllNumbers Q) →
    ∀ e ∈ m, e.1.AllNumbers (fun n => P n ∧ Q n) ∧ e.2.AllNumbers fun n => P n ∧ Q n
  | [], _, _ => by simp
  | (k, v) :: m, h, h' => List.forall_mem_cons.2
      ⟨⟨allNumbers_and k (h (k, v) (by simp)).1 (h' (k, v) (by simp)).1,
        allNumbers_and v (h (k, v) (by simp)).2 (h' (k, v) (by simp)).2⟩,
      allNumbers_and_entries m (fun v hv => h v (by simp [hv])) (fun v hv => h' v (by simp [hv]))⟩
end

mutual
/-- Zero is the only number that cannot be written. -/
theorem serialize_total (toF64 : Rat → F) : (v : Value) →
    (v.AllNumbers (· ≠ 0) ∧ ∃ s, v.serialize toF64 = .ok s) ∨ (¬ v.AllNumbers (· ≠ 0) ∧ v.serialize toF64 = .panic)
  | .literal .unit => .inl ⟨.unit, _, rfl⟩
  | .literal (.boolean b) => .inl ⟨.boolean b, _, rfl⟩
  | .literal (.textString b) => .inl ⟨.textString b, _, rfl⟩
  | .literal (.byteString b) => .inl ⟨.byteString b, _, rfl⟩
  | .literal (.number n) => by
    rcases asNative_total toF64 n with ⟨h, x, hx⟩ | ⟨h, hx⟩
    · exact .inl ⟨.number n h, _, by simp only [Value.serialize, Literal.serialize, hx, Out.bind_ok]; rfl⟩
    · exact .inr ⟨fun h' => by cases h' with | number _ h' => exact h' h,
        by simp only [Value.serialize, Literal.serialize, hx, Out.bind]⟩
  | .list l => by
    rcases serializeItems_total toF64 l with ⟨h, x, hx⟩ | ⟨h, hx⟩
    · exact .inl ⟨.list l h, _, by simp only [Value.serialize, hx, Out.bind_ok]; rfl⟩
    · exact .inr ⟨fun h' => by cases h' with | list _ h' => exact h h', by simp only [Value.serialize, hx, Out.bind]⟩
  | .map m => by
    rcases serializeEntries_total toF64 m with ⟨h, x, hx⟩ | ⟨h, hx⟩
    · exact .inl ⟨.map m (fun e he => (h e he).1) (fun e he => (h e he).2), _,
        by simp only [Value.serialize, hx, Out.bind_ok]; rfl⟩
    · exact .inr ⟨fun h' => by cases h' with | map _ h1 h2 => exact h fun e he => ⟨h1 e he, h2 e he⟩,
        by simp only [Value.serialize, hx, Out.bind]⟩

theorem serializeItems_total (toF64 : Rat → F) : (l : List Value) →
    ((∀ v ∈ l, v.AllNumbers (· ≠ 0)) ∧ ∃ s, Value.serializeItems toF64 l = .ok s) ∨
    ((¬ ∀ v ∈ l, v.AllNumbers (· ≠ 0)) ∧ Value.serializeItems toF64 l = .panic)
  | [] => .inl ⟨by simp, _, rfl⟩
  | v :: l => by
    rcases serialize_total toF64 v with ⟨h, x, hx⟩ | ⟨h, hx⟩
    · rcases serializeItems_total toF64 l with ⟨h', y, hy⟩ | ⟨h', hy⟩
      · exact .inl ⟨List.forall_mem_cons.2 ⟨h, h'⟩, _, by simp only [Value.serializeItems, hx, hy, Out.bind_ok]; rfl⟩
      · exact .inr ⟨fun h => h' (List.forall_mem_cons.1 h).2, by simp only [Value.serializeItems, hx, hy, Out.bind]⟩
    · exact .inr ⟨fun h' => h (List.forall_mem_cons.1 h').1, by simp only [Value.serializeItems, hx, Out.bind]⟩

theorem serializeEntries_total (toF64 : Rat → F) : (m : List (Value × Value)) →
    ((∀ e ∈ m, e.1.AllNumbers (· ≠ 0) ∧ e.2.AllNumbers (· ≠ 0)) ∧ ∃ s, Value.serializeEntries toF64 m = .ok s) ∨
    ((¬ ∀ e ∈ m, e.1.AllNumbers (· ≠ 0) ∧ e.2.AllNumbers (· ≠ 0)) ∧ Value.serializeEntries toF64 m = .panic)
  | [] => .inl ⟨by simp, _, rfl⟩
  | (k, v) :: m => by
    rcases serialize_total toF64 k with ⟨h, x, hx⟩ | ⟨h, hx⟩
    · rcases serialize_total toF64 v with ⟨h', y, hy⟩ | ⟨h', hy⟩
      · rcases serializeEntries_total toF64 m with ⟨h'', z, hz⟩ | ⟨h'', hz⟩
        · exact .inl ⟨List.forall_mem_cons.2 ⟨⟨h, h'⟩, h''⟩, _,
            by simp only [Value.serializeEntries, hx, hy, hz, Out.bind_ok]; rfl⟩
        · exact .inr ⟨fun h => h'' (List.forall_mem_cons.1 h).2,
            by simp only [Value.serializeEntries, hx, hy, hz, Out.bind]⟩
      · exact .inr ⟨fun h => h' (List.forall_mem_cons.1 h).1.2, by simp only [Value.serializeEntries, hx, hy, Out.bind]⟩
    · exact .inr ⟨fun h' => h (List.forall_mem_cons.1 h').1.1, by simp only [Value.serializeEntries, hx, Out.bind]⟩
end

mutual
/-- What is read with Serde is a tree that exists. -/
theorem deserialize_wf {ofF64 : F → Option Rat} : (s : SerdeValue F) → (v : Value) → Value.deserialize ofF64 s = some v → v.WF
  | .unit, v, h => by simp only [Value.deserialize, Option.some.injEq] at h; subst h; exact .literal _
  | .bool b, v, h => by simp only [Value.deserialize, Option.some.injEq] at h; subst h; exact .literal _
  | .u64 n, v, h => by simp only [Value.deserialize, Option.some.injEq] at h; subst h; exact .literal _
  | .i64 n, v, h => by simp only [Value.deserialize, Option.some.injEq] at h; subst h; exact .literal _
  | .f64 n, v, h => by
    simp only [Value.deserialize, Option.map_eq_some_iff] at h
    obtain ⟨_, _, rfl⟩ := h
    exact .literal _
  | .bytes n, v, h => by simp only [Value.deserialize, Option.some.injEq] at h; subst h; exact .literal _
  | .str n, v, h => by simp only [Value.deserialize, Option.some.injEq] at h; subst h; exact .literal _
  | .seq l, v, h => by
    simp only [Value.deserialize, Option.map_eq_some_iff] at h
    obtain ⟨vs, hv, rfl⟩ := h
    exact .list _ (deserializeItems_wf l vs hv)
  | .map m, v, h => by
    simp only [Value.deserialize, Option.map_eq_some_iff] at h
    obtain ⟨vs, hv, rfl⟩ := h
    have := deserializeEntries_wf m vs hv
    exact .map _ (bmapCollect_sorted _) (fun e he => (this e (bmapCollect_mem _ e he)).1)
      (fun e he => (this e (bmapCollect_mem _ e he)).2)

theorem deserializeItems_wf {ofF64 : F → Option Rat} : (l : List (SerdeValue F)) → (vs : List Value) →
    Value.deserializeItems ofF64 l = some vs → ∀ v ∈ vs, v.WF
  | [], vs, h => by simp only [Value.deserializeItems, Option.some.injEq] at h; subst h; simp
  | s :: l, vs, h => by
    simp only [Value.deserializeItems, Option.bind_eq_some_iff, Option.map_eq_some_iff] at h
    obtain ⟨v, hv, vs', hvs, rfl⟩ := h
    exact List.forall_mem_cons.2 ⟨deserialize_wf s v hv, deserializeItems_wf l vs' hvs⟩

theorem deserializeEntries_wf {ofF64 : F → Option Rat} : (m : List (SerdeValue F × SerdeValue F)) → (vs : List (Value × Value)) →
    Value.deserializeEntries ofF64 m = some vs → ∀ e ∈ vs, e.1.WF ∧ e.2.WF
  | [], vs, h => by simp only [Value.deserializeEntries, Option.some.injEq] at h; subst h; simp
  | (k, s) :: m, vs, h => by
    simp only [Value.deserializeEntries, Option.bind_eq_some_iff, Option.map_eq_some_iff] at h
    obtain ⟨k', hk, v, hv, vs', hvs, rfl⟩ := h
    exact List.forall_mem_cons.2 ⟨⟨deserialize_wf k k' hk, deserialize_wf s v hv⟩, deserializeEntries_wf m vs' hvs⟩
end

theorem TreeFormat.load_wf {ofF64 : F → Option Rat} {f : TreeFormat} {input : Input F} {v : Value}
    (h : f.load ofF64 input = .ok v) : v.WF := by
  cases f with
  | json =>
    simp only [TreeFormat.load] at h
    split at h
    next j _ => exact toValue_wf j v (ofTotal_eq_ok.1 h)
    next => cases h
  | cbor =>
    simp only [TreeFormat.load] at h
    split at h
    next v' hv =>
      simp only [Out.ok.injEq] at h
      subst h
      obtain ⟨s, -, hs⟩ := Option.bind_eq_some_iff.1 hv
      exact deserialize_wf s _ hs
    next => cases h

end Verif
