import Verif.JsonSpec
import Verif.NumberLemmas

/-!
# Lemmas about JSON and Serde conversions
-/

set_option linter.unusedSimpArgs false
set_option linter.unusedSectionVars false

namespace Verif

/-! ### Collecting sorted entries -/

theorem bmapInsert_last {α : Type _} (m : List (Value × α)) (k : Value) (v : α)
    (h : ∀ e ∈ m, Value.le e.1 k = true ∧ e.1 ≠ k) : bmapInsert Value.le k v m = m ++ [(k, v)] := by
  induction m with
  | nil => rfl
  | cons e m ih =>
    obtain ⟨k', v'⟩ := e
    obtain ⟨h1, h2⟩ := h (k', v') (by simp)
    have h3 : Value.le k k' = false := by
      cases hle : Value.le k k' with
      | false => rfl
      | true =>
        have he := lexLe_antisymm _ _ h1 hle
        have := Value.prefixFree k' k [] [] (by rw [he])
        exact absurd this.1 h2
    simp only [bmapInsert, Ne.symm h2, h3, if_false, Bool.false_eq_true, List.cons_append]
    rw [ih (fun e he => h e (by simp [he]))]

theorem bmapCollect_foldl {α : Type _} (l acc : List (Value × α)) (h : StrictlyIncreasing (acc ++ l)) :
    l.foldl (fun m e => bmapInsert Value.le e.1 e.2 m) acc = acc ++ l := by
  induction l generalizing acc with
  | nil => simp
  | cons e l ih =>
    have h1 : ∀ x ∈ acc, Value.le x.1 e.1 = true ∧ x.1 ≠ e.1 := by
      intro x hx
      exact (List.pairwise_append.1 h).2.2 x hx e (by simp)
    rw [List.foldl_cons, bmapInsert_last _ _ _ h1, ih _ (by simpa using h)]
    simp

/-- A map rebuilt from its entries is the same map. -/
theorem bmapCollect_eq {α : Type _} (l : List (Value × α)) (h : StrictlyIncreasing l) :
    bmapCollect Value.le l = l := by
  rw [bmapCollect, bmapCollect_foldl l [] (by simpa using h)]; rfl

theorem bmapInsert_mem {α : Type _} (m : List (Value × α)) (k : Value) (v : α) :
    ∀ e ∈ bmapInsert Value.le k v m, e = (k, v) ∨ e ∈ m := by
  induction m with
  | nil => simp [bmapInsert]
  | cons x m ih =>
    obtain ⟨k', v'⟩ := x
    intro e he
    simp only [bmapInsert] at he
    split at he
    · rcases List.mem_cons.1 he with rfl | he
      · exact .inl rfl
      · exact .inr (by simp [he])
    · split at he
      · rcases List.mem_cons.1 he with rfl | he
        · exact .inl rfl
        · exact .inr he
      · rcases List.mem_cons.1 he with rfl | he
        · exact .inr (by simp)
        · rcases ih e he with rfl | h
          · exact .inl rfl
          · exact .inr (by simp [h])

theorem bmapInsert_sorted {α : Type _} (m : List (Value × α)) (k : Value) (v : α) (h : StrictlyIncreasing m) :
    StrictlyIncreasing (bmapInsert Value.le k v m) := by
  induction m with
  | nil => simp [bmapInsert, StrictlyIncreasing]
  | cons x m ih =>
    obtain ⟨k', v'⟩ := x
    simp only [StrictlyIncreasing, List.pairwise_cons] at h
    simp only [bmapInsert]
    split
    · rename_i hk
      subst hk
      simp only [StrictlyIncreasing, List.pairwise_cons]
      exact h
    · rename_i hk
      split
      · rename_i hle
        simp only [StrictlyIncreasing, List.pairwise_cons]
        refine ⟨?_, h⟩
        intro e he
        rcases List.mem_cons.1 he with rfl | he
        · exact ⟨hle, hk⟩
        · obtain ⟨h1, h2⟩ := h.1 e he
          refine ⟨lexLe_trans _ _ _ hle h1, ?_⟩
          rintro rfl
          have he := lexLe_antisymm _ _ h1 hle
          exact h2 (Value.prefixFree _ _ [] [] (by rw [he])).1
      · rename_i hle
        simp only [StrictlyIncreasing, List.pairwise_cons]
        refine ⟨?_, ih h.2⟩
        intro e he
        rcases bmapInsert_mem m k v e he with rfl | he
        · refine ⟨?_, Ne.symm hk⟩
          rcases lexLe_total k.enc k'.enc with h' | h'
          · exact absurd h' hle
          · exact h'
        · exact h.1 e he

theorem bmapCollect_sorted {α : Type _} (l : List (Value × α)) : StrictlyIncreasing (bmapCollect Value.le l) := by
  have : ∀ (l acc : List (Value × α)), StrictlyIncreasing acc →
      StrictlyIncreasing (l.foldl (fun m e => bmapInsert Value.le e.1 e.2 m) acc) := by
    intro l
    induction l with
    | nil => intro acc h; exact h
    | cons e l ih => intro acc h; exact ih _ (bmapInsert_sorted _ _ _ h)
  exact this l [] .nil

theorem bmapCollect_mem {α : Type _} (l : List (Value × α)) : ∀ e ∈ bmapCollect Value.le l, e ∈ l := by
  have : ∀ (l acc : List (Value × α)), ∀ e ∈ l.foldl (fun m e => bmapInsert Value.le e.1 e.2 m) acc,
      e ∈ acc ∨ e ∈ l := by
    intro l
    induction l with
    | nil => intro acc e he; exact .inl he
    | cons x l ih =>
      intro acc e he
      rcases ih _ e he with h | h
      · rcases bmapInsert_mem _ _ _ e h with rfl | h
        · exact .inr (by simp)
        · exact .inl h
      · exact .inr (by simp [h])
  intro e he
  simpa using this l [] e he

/-! ### JSON -/

mutual
theorem json_roundtrip : (v : Value) → (j : Json) → v.WF → v.toJson = .ok j → j.toValue = .ok v
  | .literal l, j, _, h => by
    rw [Value.toJson] at h
    cases l with
    | unit => simp only [Literal.toJson, Out.ok.injEq] at h; subst h; simp [Json.toValue]
    | boolean b => simp only [Literal.toJson, Out.ok.injEq] at h; subst h; simp [Json.toValue]
    | number n =>
      rw [Literal.toJson] at h
      cases hn : Number.toJson n with
      | none => rw [hn] at h; cases h
      | some s =>
        rw [hn] at h
        simp only [Out.ok.injEq] at h
        subst h
        rw [Json.toValue, Number.ofJson_toJson hn]; rfl
    | byteString b => simp [Literal.toJson] at h
    | textString s => simp only [Literal.toJson, Out.ok.injEq] at h; subst h; simp [Json.toValue]
  | .list l, j, hw, h => by
    rw [Value.toJson, Out.bind_eq_ok] at h
    obtain ⟨js, h1, h2⟩ := h
    simp only [Out.ok.injEq] at h2
    subst h2
    cases hw with
    | list _ hw => rw [Json.toValue, json_roundtrip_items l js hw h1]; rfl
  | .map m, j, hw, h => by
    rw [Value.toJson, Out.bind_eq_ok] at h
    obtain ⟨js, h1, h2⟩ := h
    simp only [Out.ok.injEq] at h2
    subst h2
    cases hw with
    | map _ hs _ hw => rw [Json.toValue, json_roundtrip_entries m js hw h1, Out.bind_ok, bmapCollect_eq m hs]

theorem json_roundtrip_items : (l : List Value) → (js : List Json) → (∀ v ∈ l, v.WF) →
    Value.itemsToJson l = .ok js → Json.toValues js = .ok l
  | [], js, _, h => by
    simp only [Value.itemsToJson, Out.ok.injEq] at h; subst h; rfl
  | v :: l, js, hw, h => by
    simp only [Value.itemsToJson, Out.bind_eq_ok, Out.ok.injEq] at h
    obtain ⟨j, h1, js', h2, rfl⟩ := h
    rw [Json.toValues, json_roundtrip v j (hw v (by simp)) h1,
      Out.bind_ok, json_roundtrip_items l js' (fun w h => hw w (by simp [h])) h2]; rfl

theorem json_roundtrip_entries : (m : List (Value × Value)) → (js : List (String × Json)) → (∀ e ∈ m, e.2.WF) →
    Value.entriesToJson m = .ok js → Json.toEntries js = .ok m
  | [], js, _, h => by
    simp only [Value.entriesToJson, Out.ok.injEq] at h; subst h; rfl
  | (k, v) :: m, js, hw, h => by
    rw [Value.entriesToJson.eq_def] at h
    simp only at h
    split at h
    · rename_i s
      simp only [Out.bind_eq_ok, Out.ok.injEq] at h
      obtain ⟨j, h1, js', h2, rfl⟩ := h
      rw [Json.toEntries, json_roundtrip v j (hw (.literal (.textString s), v) (by simp)) h1,
        Out.bind_ok, json_roundtrip_entries m js' (fun e h => hw e (by simp [h])) h2]; rfl
    · cases h
end

/-- The numbers accepted by the conversion. -/
def JsonNumber (n : Rat) : Prop := FiniteDecimal n ∧ -1 < n

mutual
theorem toJson_ok_iff : (v : Value) → ((∃ j, v.toJson = .ok j) ↔ v.JsonCompatible JsonNumber)
  | .literal l => by
    rw [Value.toJson]
    cases l with
    | unit => exact ⟨fun _ => .unit, fun _ => ⟨_, rfl⟩⟩
    | boolean b => exact ⟨fun _ => .boolean b, fun _ => ⟨_, rfl⟩⟩
    | number n =>
      rw [Literal.toJson]
      constructor
      · rintro ⟨j, h⟩
        cases hn : Number.toJson n with
        | none => rw [hn] at h; cases h
        | some s => exact .number n ((Number.toJson_isSome n).1 ⟨s, hn⟩)
      · intro h
        cases h with
        | number _ h =>
          obtain ⟨s, hs⟩ := (Number.toJson_isSome n).2 h
          exact ⟨_, by rw [hs]⟩
    | byteString b =>
      constructor
      · rintro ⟨j, h⟩; simp [Literal.toJson] at h
      · intro h; cases h
    | textString s => exact ⟨fun _ => .textString s, fun _ => ⟨_, rfl⟩⟩
  | .list l => by
    rw [Value.toJson]
    constructor
    · rintro ⟨j, h⟩
      obtain ⟨js, h1, _⟩ := Out.bind_eq_ok.1 h
      exact .list l ((itemsToJson_ok_iff l).1 ⟨js, h1⟩)
    · intro h
      cases h with
      | list _ h =>
        obtain ⟨js, h1⟩ := (itemsToJson_ok_iff l).2 h
        exact ⟨_, by rw [h1]; rfl⟩
  | .map m => by
    rw [Value.toJson]
    constructor
    · rintro ⟨j, h⟩
      obtain ⟨js, h1, _⟩ := Out.bind_eq_ok.1 h
      have := (entriesToJson_ok_iff m).1 ⟨js, h1⟩
      exact .map m (fun e he => (this e he).1) (fun e he => (this e he).2)
    · intro h
      cases h with
      | map _ hk hv =>
        obtain ⟨js, h1⟩ := (entriesToJson_ok_iff m).2 (fun e he => ⟨hk e he, hv e he⟩)
        exact ⟨_, by rw [h1]; rfl⟩

theorem itemsToJson_ok_iff : (l : List Value) →
    ((∃ j, Value.itemsToJson l = .ok j) ↔ ∀ v ∈ l, v.JsonCompatible JsonNumber)
  | [] => by simp [Value.itemsToJson]
  | v :: l => by
    simp only [Value.itemsToJson, Out.bind_eq_ok, Out.ok.injEq, List.forall_mem_cons]
    rw [← toJson_ok_iff v, ← itemsToJson_ok_iff l]
    constructor
    · rintro ⟨_, j, h1, js, h2, _⟩; exact ⟨⟨j, h1⟩, ⟨js, h2⟩⟩
    · rintro ⟨⟨j, h1⟩, ⟨js, h2⟩⟩; exact ⟨_, j, h1, js, h2, rfl⟩

theorem entriesToJson_ok_iff : (m : List (Value × Value)) →
    ((∃ j, Value.entriesToJson m = .ok j) ↔
      ∀ e ∈ m, (∃ s, e.1 = .literal (.textString s)) ∧ e.2.JsonCompatible JsonNumber)
  | [] => by simp [Value.entriesToJson]
  | (k, v) :: m => by
    rw [List.forall_mem_cons, ← toJson_ok_iff v, ← entriesToJson_ok_iff m]
    rw [Value.entriesToJson.eq_def]
    simp only
    split
    · rename_i s
      simp only [Out.bind_eq_ok, Out.ok.injEq]
      constructor
      · rintro ⟨_, j, h1, js, h2, _⟩; exact ⟨⟨⟨s, rfl⟩, ⟨j, h1⟩⟩, ⟨js, h2⟩⟩
      · rintro ⟨⟨_, ⟨j, h1⟩⟩, ⟨js, h2⟩⟩; exact ⟨_, j, h1, js, h2, rfl⟩
    · rename_i k' hk
      constructor
      · rintro ⟨_, h⟩; cases h
      · rintro ⟨⟨⟨s, hs⟩, _⟩, _⟩; exact absurd hs (hk s)
end

mutual
theorem toValue_wf : (j : Json) → (v : Value) → j.toValue = .ok v → v.WF
  | .null, v, h => by simp only [Json.toValue, Out.ok.injEq] at h; subst h; exact .literal _
  | .boolean b, v, h => by simp only [Json.toValue, Out.ok.injEq] at h; subst h; exact .literal _
  | .number s, v, h => by
    simp only [Json.toValue, Out.bind_eq_ok, Out.ok.injEq] at h
    obtain ⟨n, _, rfl⟩ := h; exact .literal _
  | .string s, v, h => by simp only [Json.toValue, Out.ok.injEq] at h; subst h; exact .literal _
  | .array l, v, h => by
    simp only [Json.toValue, Out.bind_eq_ok, Out.ok.injEq] at h
    obtain ⟨vs, h1, rfl⟩ := h
    exact .list _ (toValues_wf l vs h1)
  | .object m, v, h => by
    simp only [Json.toValue, Out.bind_eq_ok, Out.ok.injEq] at h
    obtain ⟨vs, h1, rfl⟩ := h
    have := toEntries_wf m vs h1
    exact .map _ (bmapCollect_sorted _) (fun e he => (this e (bmapCollect_mem _ e he)).1)
      (fun e he => (this e (bmapCollect_mem _ e he)).2)

theorem toValues_wf : (l : List Json) → (vs : List Value) → Json.toValues l = .ok vs → ∀ v ∈ vs, v.WF
  | [], vs, h => by simp only [Json.toValues, Out.ok.injEq] at h; subst h; simp
  | j :: l, vs, h => by
    simp only [Json.toValues, Out.bind_eq_ok, Out.ok.injEq] at h
    obtain ⟨v, h1, vs', h2, rfl⟩ := h
    rw [List.forall_mem_cons]
    exact ⟨toValue_wf j v h1, toValues_wf l vs' h2⟩

theorem toEntries_wf : (m : List (String × Json)) → (vs : List (Value × Value)) → Json.toEntries m = .ok vs →
    ∀ e ∈ vs, e.1.WF ∧ e.2.WF
  | [], vs, h => by simp only [Json.toEntries, Out.ok.injEq] at h; subst h; simp
  | (k, j) :: m, vs, h => by
    simp only [Json.toEntries, Out.bind_eq_ok, Out.ok.injEq] at h
    obtain ⟨v, h1, vs', h2, rfl⟩ := h
    rw [List.forall_mem_cons]
    exact ⟨⟨.literal _, toValue_wf j v h1⟩, toEntries_wf m vs' h2⟩
end

theorem number_toValue {s : List Char} (h : IsJsonNumber s) :
    ((∃ q, IsNumeral s q) ∧ ∃ q, IsNumeral s q ∧ (Json.number s).toValue = .ok (.literal (.number q))) ∨
    ((¬ ∃ q, IsNumeral s q) ∧ (Json.number s).toValue = .panic) := by
  obtain ⟨q, t, e, ht, he, rfl⟩ := h
  rcases he with rfl | he
  · rw [List.append_nil]
    exact .inl ⟨⟨q, ht⟩, q, ht, by simp [Json.toValue, Number.ofJson, Number.parse_of_numeral ht, Out.ofOption, Out.bind]⟩
  · have hp := Number.parse_of_exponent ht he
    refine .inr ⟨fun ⟨q', h'⟩ => ?_, by simp [Json.toValue, Number.ofJson, hp, Out.ofOption, Out.bind]⟩
    rw [Number.parse_of_numeral h'] at hp
    cases hp

mutual
theorem toValue_total : (j : Json) → (∀ s, j.Mentions s → IsJsonNumber s) →
    ((∀ s, j.Mentions s → ∃ q, IsNumeral s q) ∧ ∃ v, j.toValue = .ok v) ∨
    ((¬ ∀ s, j.Mentions s → ∃ q, IsNumeral s q) ∧ j.toValue = .panic)
  | .null, _ => .inl ⟨(fun s h => by cases h), _, rfl⟩
  | .boolean b, _ => .inl ⟨(fun s h => by cases h), _, rfl⟩
  | .string b, _ => .inl ⟨(fun s h => by cases h), _, rfl⟩
  | .number s, h => by
    rcases number_toValue (h s (.here s)) with ⟨h1, q, -, h2⟩ | ⟨h1, h2⟩
    · exact .inl ⟨fun s' hs => by cases hs; exact h1, _, h2⟩
    · exact .inr ⟨fun hs => h1 (hs _ (.here s)), h2⟩
  | .array l, h => by
    rcases toValues_total l (fun j hj s hs => h s (.array hj hs)) with ⟨h1, vs, h2⟩ | ⟨h1, h2⟩
    · exact .inl ⟨fun s hs => by cases hs with | array hj hs => exact h1 _ hj _ hs,
        _, by simp only [Json.toValue, h2, Out.bind_ok]; rfl⟩
    · exact .inr ⟨fun hs => h1 fun j hj s h => hs s (.array hj h), by simp only [Json.toValue, h2, Out.bind]⟩
  | .object m, h => by
    rcases toEntries_total m (fun k j hj s hs => h s (.object hj hs)) with ⟨h1, vs, h2⟩ | ⟨h1, h2⟩
    · exact .inl ⟨fun s hs => by cases hs with | object hj hs => exact h1 _ _ hj _ hs,
        _, by simp only [Json.toValue, h2, Out.bind_ok]; rfl⟩
    · exact .inr ⟨fun hs => h1 fun k j hj s h => hs s (.object hj h), by simp only [Json.toValue, h2, Out.bind]⟩

theorem toValues_total : (l : List Json) → (∀ j ∈ l, ∀ s, j.Mentions s → IsJsonNumber s) →
    ((∀ j ∈ l, ∀ s, j.Mentions s → ∃ q, IsNumeral s q) ∧ ∃ v, Json.toValues l = .ok v) ∨
    ((¬ ∀ j ∈ l, ∀ s, j.Mentions s → ∃ q, IsNumeral s q) ∧ Json.toValues l = .panic)
  | [], _ => .inl ⟨by simp, _, rfl⟩
  | j :: l, h => by
    rcases toValue_total j (h j (by simp)) with ⟨h1, v, h2⟩ | ⟨h1, h2⟩
    · rcases toValues_total l (fun j hj => h j (by simp [hj])) with ⟨h3, vs, h4⟩ | ⟨h3, h4⟩
      · exact .inl ⟨List.forall_mem_cons.2 ⟨h1, h3⟩, _, by simp only [Json.toValues, h2, h4, Out.bind_ok]; rfl⟩
      · exact .inr ⟨fun h => h3 (List.forall_mem_cons.1 h).2, by simp only [Json.toValues, h2, h4, Out.bind]⟩
    · exact .inr ⟨fun h => h1 (List.forall_mem_cons.1 h).1, by simp only [Json.toValues, h2, Out.bind]⟩

theorem toEntries_total : (m : List (String × Json)) → (∀ k j, (k, j) ∈ m → ∀ s, j.Mentions s → IsJsonNumber s) →
    ((∀ k j, (k, j) ∈ m → ∀ s, j.Mentions s → ∃ q, IsNumeral s q) ∧ ∃ v, Json.toEntries m = .ok v) ∨
    ((¬ ∀ k j, (k, j) ∈ m → ∀ s, j.Mentions s → ∃ q, IsNumeral s q) ∧ Json.toEntries m = .panic)
  | [], _ => .inl ⟨by simp, _, rfl⟩
  | (k, j) :: m, h => by
    rcases toValue_total j (h k j (by simp)) with ⟨h1, v, h2⟩ | ⟨h1, h2⟩
    · rcases toEntries_total m (fun k j hj => h k j (by simp [hj])) with ⟨h3, vs, h4⟩ | ⟨h3, h4⟩
      · refine .inl ⟨fun k' j' hj => ?_, _, by simp only [Json.toEntries, h2, h4, Out.bind_ok]; rfl⟩
        rcases List.mem_cons.1 hj with e | hj
        · cases e; exact h1
        · exact h3 _ _ hj
      · exact .inr ⟨fun h => h3 fun k j hj => h k j (by simp [hj]), by simp only [Json.toEntries, h2, h4, Out.bind]⟩
    · exact .inr ⟨fun h => h1 (h k j (by simp)), by simp only [Json.toEntries, h2, Out.bind]⟩
end

/-! ### Serde -/

variable {F : Type} {toF64 : Rat → F} {ofF64 : F → Option Rat}

theorem Number.bits_le {z : Int} {k : Nat} (hk : 0 < k) : Number.bits z ≤ k ↔ z.natAbs < 2 ^ k := by
  rw [Number.bits]
  by_cases hz : z = 0
  · simp [hz]
  · rw [if_neg hz, Nat.succ_le_iff, Nat.log2_lt (by omega)]

theorem Number.bits_lt {z : Int} {k : Nat} : Number.bits z < k + 1 ↔ z.natAbs < 2 ^ k := by
  rw [Number.bits]
  by_cases hz : z = 0
  · simp [hz]
  · rw [if_neg hz, Nat.add_lt_add_iff_right, Nat.log2_lt (by omega)]

/-- Numbers that survive serialization: non-zero integers of 64 bits, and numbers that floats represent exactly. -/
def SerdeNumber (toF64 : Rat → F) (ofF64 : F → Option Rat) (n : Rat) : Prop :=
  n ≠ 0 ∧ ((n.den = 1 ∧ -2 ^ 63 < n.num ∧ n.num < 2 ^ 64) ∨ ofF64 (toF64 n) = some n)

theorem rat_of_den_one {n : Rat} (h : n.den = 1) : n = (n.num : Rat) := by
  have := Rat.num_div_den n
  rw [h] at this
  simpa using this.symm

theorem number_serde {n : Rat} (h : SerdeNumber toF64 ofF64 n) :
    ∃ s, (Literal.number n).serialize toF64 = .ok s ∧ Value.deserialize ofF64 s = some (.literal (.number n)) := by
  obtain ⟨h0, h⟩ := h
  have hnum : n.num ≠ 0 := fun h => h0 (Rat.num_eq_zero.1 h)
  simp only [Literal.serialize, Number.asNative]
  by_cases hd : n.den = 1
  · have hq := rat_of_den_one hd
    simp only [hd, if_true]
    by_cases hneg : n.num < 0
    · simp only [hneg, if_true]
      by_cases hb : Number.bits n.num < 64
      · have hlt := Number.bits_lt.1 hb
        simp only [hb, if_true, Number.firstU64Digit, hnum, if_false, Out.ofOption, Out.bind_ok]
        refine ⟨_, rfl, ?_⟩
        simp only [Value.deserialize, Option.some.injEq, Value.literal.injEq, Literal.number.injEq]
        have hm : n.num.natAbs % 2 ^ 64 = n.num.natAbs := Nat.mod_eq_of_lt (by omega)
        have hw : Number.wrapI64 (n.num.natAbs) = (n.num.natAbs : Int) := by
          rw [Number.wrapI64, if_pos hlt]
        rw [hm, hw]
        have : -(n.num.natAbs : Int) = n.num := by omega
        rw [this, ← hq]
      · simp only [hb, if_false, Out.bind_ok]
        refine ⟨_, rfl, ?_⟩
        rcases h with ⟨_, h1, _⟩ | h
        · exact absurd (Number.bits_lt.2 (by omega)) hb
        · simp only [Value.deserialize, h, Option.map_some]
    · simp only [hneg, if_false]
      by_cases hb : Number.bits n.num ≤ 64
      · have hlt := (Number.bits_le (by decide)).1 hb
        simp only [hb, if_true, Number.firstU64Digit, hnum, if_false, Out.ofOption, Out.bind_ok]
        refine ⟨_, rfl, ?_⟩
        simp only [Value.deserialize, Option.some.injEq, Value.literal.injEq, Literal.number.injEq]
        rw [Nat.mod_eq_of_lt hlt]
        have : (n.num.natAbs : Int) = n.num := by omega
        conv_rhs => rw [hq, ← this]
        rw [Int.cast_natCast]
      · simp only [hb, if_false, Out.bind_ok]
        refine ⟨_, rfl, ?_⟩
        rcases h with ⟨_, h1, h2⟩ | h
        · exact absurd ((Number.bits_le (by decide)).2 (by omega)) hb
        · simp only [Value.deserialize, h, Option.map_some]
  · simp only [hd, if_false, Out.bind_ok]
    refine ⟨_, rfl, ?_⟩
    rcases h with ⟨h1, _⟩ | h
    · exact absurd h1 hd
    · simp only [Value.deserialize, h, Option.map_some]

mutual
theorem serde_roundtrip : (v : Value) → v.WF → v.AllNumbers (SerdeNumber toF64 ofF64) →
    ∃ s, v.serialize toF64 = .ok s ∧ Value.deserialize ofF64 s = some v
  | .literal l, _, ha => by
    rw [Value.serialize]
    cases l with
    | unit => exact ⟨_, rfl, rfl⟩
    | boolean b => exact ⟨_, rfl, rfl⟩
    | number n => cases ha with | number _ h => exact number_serde h
    | byteString b => exact ⟨_, rfl, rfl⟩
    | textString s => exact ⟨_, rfl, rfl⟩
  | .list l, hw, ha => by
    cases hw with
    | list _ hw => cases ha with
      | list _ ha =>
        obtain ⟨s, h1, h2⟩ := serde_roundtrip_items l hw ha
        exact ⟨.seq s, by rw [Value.serialize, h1]; rfl, by rw [Value.deserialize, h2]; rfl⟩
  | .map m, hw, ha => by
    cases hw with
    | map _ hs hwk hwv => cases ha with
      | map _ hak hav =>
        obtain ⟨s, h1, h2⟩ := serde_roundtrip_entries m hwk hwv hak hav
        exact ⟨.map s, by rw [Value.serialize, h1]; rfl, by
          rw [Value.deserialize, h2, Option.map_some, bmapCollect_eq m hs]⟩

theorem serde_roundtrip_items : (l : List Value) → (∀ v ∈ l, v.WF) →
    (∀ v ∈ l, v.AllNumbers (SerdeNumber toF64 ofF64)) →
    ∃ s, Value.serializeItems toF64 l = .ok s ∧ Value.deserializeItems ofF64 s = some l
  | [], _, _ => ⟨[], rfl, rfl⟩
  | v :: l, hw, ha => by
    obtain ⟨s, h1, h2⟩ := serde_roundtrip v (hw v (by simp)) (ha v (by simp))
    obtain ⟨t, h3, h4⟩ := serde_roundtrip_items l (fun w h => hw w (by simp [h])) (fun w h => ha w (by simp [h]))
    exact ⟨s :: t, by rw [Value.serializeItems, h1, Out.bind_ok, h3]; rfl, by
      rw [Value.deserializeItems, h2, Option.bind_some, h4]; rfl⟩

theorem serde_roundtrip_entries : (m : List (Value × Value)) → (∀ e ∈ m, e.1.WF) → (∀ e ∈ m, e.2.WF) →
    (∀ e ∈ m, e.1.AllNumbers (SerdeNumber toF64 ofF64)) → (∀ e ∈ m, e.2.AllNumbers (SerdeNumber toF64 ofF64)) →
    ∃ s, Value.serializeEntries toF64 m = .ok s ∧ Value.deserializeEntries ofF64 s = some m
  | [], _, _, _, _ => ⟨[], rfl, rfl⟩
  | (k, v) :: m, hwk, hwv, hak, hav => by
    obtain ⟨s, h1, h2⟩ := serde_roundtrip k (hwk (k, v) (by simp)) (hak (k, v) (by simp))
    obtain ⟨s', h1', h2'⟩ := serde_roundtrip v (hwv (k, v) (by simp)) (hav (k, v) (by simp))
    obtain ⟨t, h3, h4⟩ := serde_roundtrip_entries m (fun e h => hwk e (by simp [h])) (fun e h => hwv e (by simp [h]))
      (fun e h => hak e (by simp [h])) (fun e h => hav e (by simp [h]))
    exact ⟨(s, s') :: t, by
      rw [Value.serializeEntries, h1, Out.bind_ok, h1', Out.bind_ok, h3]; rfl, by
      rw [Value.deserializeEntries, h2, Option.bind_some, h2', Option.bind_some, h4]; rfl⟩
end

end Verif
