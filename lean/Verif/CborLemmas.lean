import Verif.JsonLemmas

/-!
# Lemmas about CBOR
-/

set_option linter.unusedSimpArgs false
set_option linter.unusedSectionVars false

namespace Verif

/-! ### Bytes -/

/-- The number denoted by bytes, least significant byte first. -/
def leNat : List UInt8 → Nat
  | [] => 0
  | d :: l => d.toNat + 256 * leNat l

theorem beNat_foldl (l : List UInt8) (n : Nat) :
    l.foldl (fun n d => 256 * n + d.toNat) n = 256 ^ l.length * n + l.foldl (fun n d => 256 * n + d.toNat) 0 := by
  induction l generalizing n with
  | nil => simp
  | cons d l ih =>
    simp only [List.foldl_cons, List.length_cons, Nat.pow_succ]
    rw [ih (256 * n + d.toNat), ih (256 * 0 + d.toNat)]
    ring

theorem beNat_append (l r : List UInt8) : beNat (l ++ r) = 256 ^ r.length * beNat l + beNat r := by
  simp only [beNat, List.foldl_append]
  rw [beNat_foldl]

theorem beNat_reverse (l : List UInt8) : beNat l.reverse = leNat l := by
  induction l with
  | nil => rfl
  | cons d l ih =>
    rw [List.reverse_cons, beNat_append, ih]
    simp [beNat, leNat, Nat.add_comm]

theorem leNat_bytesLe (f n : Nat) (h : n < 256 ^ f) : leNat (bytesLe f n) = n := by
  induction f generalizing n with
  | zero => simp at h; subst h; rfl
  | succ f ih =>
    rw [bytesLe]
    split
    · subst_vars; rfl
    · have : n / 256 < 256 ^ f := by
        rw [Nat.div_lt_iff_lt_mul (by decide)]; rw [Nat.pow_succ] at h; exact h
      rw [leNat, ih _ this]
      have : (UInt8.ofNat (n % 256)).toNat = n % 256 := by
        rw [UInt8.toNat_ofNat']; omega
      rw [this]; omega

theorem lt_pow_256 (n : Nat) : n < 256 ^ (n + 1) :=
  Nat.lt_trans (Nat.lt_pow_self (by decide)) (Nat.pow_lt_pow_right (by decide) (Nat.lt_succ_self n))

theorem toNat_compl (d : UInt8) : (~~~d).toNat = 255 - d.toNat := by
  rw [UInt8.toNat_not]; rfl

theorem leNat_lt (l : List UInt8) : leNat l < 256 ^ l.length := by
  induction l with
  | nil => simp [leNat]
  | cons d l ih =>
    have hd : d.toNat < 256 := d.toNat_lt
    rw [leNat, List.length_cons, Nat.pow_succ]; omega

theorem leNat_complement (l : List UInt8) :
    leNat (twosComplementLe false l) = 256 ^ l.length - 1 - leNat l ∧
    (0 < leNat l → leNat (twosComplementLe true l) = 256 ^ l.length - leNat l) ∧
    (leNat l = 0 → leNat (twosComplementLe true l) = 0) := by
  induction l with
  | nil => simp [twosComplementLe, leNat]
  | cons d l ih =>
    obtain ⟨h1, h2, h3⟩ := ih
    have hd : d.toNat < 256 := d.toNat_lt
    have hl := leNat_lt l
    have hp : 0 < 256 ^ l.length := Nat.pow_pos (by decide)
    refine ⟨?_, ?_, ?_⟩
    · simp only [twosComplementLe, Bool.false_eq_true, if_false, leNat, h1, toNat_compl, List.length_cons, Nat.pow_succ]
      omega
    · intro hpos
      simp only [twosComplementLe, if_true, leNat, List.length_cons, Nat.pow_succ]
      have hsum : (~~~d + 1).toNat = (255 - d.toNat + 1) % 256 := by
        rw [UInt8.toNat_add, toNat_compl]; rfl
      by_cases h0 : d.toNat = 0
      · have hz : (~~~d + 1 == 0) = true := by
          rw [beq_iff_eq, ← UInt8.toNat_inj, hsum, h0]; rfl
        rw [hz, hsum, h0]
        rw [leNat, h0] at hpos
        rw [h2 (by omega)]
        omega
      · have hz : (~~~d + 1 == 0) = false := by
          rw [beq_eq_false_iff_ne, ne_eq, ← UInt8.toNat_inj, hsum]
          show ¬(255 - d.toNat + 1) % 256 = 0
          omega
        rw [hz, hsum, h1]
        omega
    · intro hz
      rw [leNat] at hz
      have h0 : d.toNat = 0 := by omega
      have hl0 : leNat l = 0 := by omega
      have hsum : (~~~d + 1).toNat = (255 - d.toNat + 1) % 256 := by
        rw [UInt8.toNat_add, toNat_compl]; rfl
      have hz : (~~~d + 1 == 0) = true := by
        rw [beq_iff_eq, ← UInt8.toNat_inj, hsum, h0]; rfl
      simp only [twosComplementLe, if_true, leNat, hz, hsum, h0, h3 hl0]

theorem length_complement (c : Bool) (l : List UInt8) : (twosComplementLe c l).length = l.length := by
  induction l generalizing c with
  | nil => rfl
  | cons d l ih =>
    cases c
    · simp [twosComplementLe, ih]
    · simp [twosComplementLe, ih]

theorem beNat_zero_cons (l : List UInt8) : beNat (0 :: l) = beNat l := by
  simp [beNat]

/-- The bytes of a non-negative number denote it. -/
theorem beNat_signed_nonneg (z : Int) (h : 0 ≤ z) : (beNat (toSignedBytesBe z) : Int) = z := by
  have hv : beNat (bytesLe (z.natAbs + 1) z.natAbs).reverse = z.natAbs := by
    rw [beNat_reverse, leNat_bytesLe _ _ (lt_pow_256 _)]
  have hneg : ¬z < 0 := by omega
  simp only [toSignedBytesBe, hneg, if_false]
  split
  · rw [beNat_zero_cons, hv]; omega
  · rw [hv]; omega

/-- The bytes of a negative number, read as an unsigned number. -/
theorem beNat_signed_neg (z : Int) (h : z < 0) :
    ∃ k, 0 < k ∧ (beNat (toSignedBytesBe z) : Int) = 256 ^ k + z := by
  have hv : beNat (bytesLe (z.natAbs + 1) z.natAbs).reverse = z.natAbs := by
    rw [beNat_reverse, leNat_bytesLe _ _ (lt_pow_256 _)]
  simp only [toSignedBytesBe, h, if_true]
  generalize hb : (if 0x7f < (bytesLe (z.natAbs + 1) z.natAbs).reverse.headD 0 ∧
    ¬((bytesLe (z.natAbs + 1) z.natAbs).reverse.headD 0 = 0x80 ∧
      ((bytesLe (z.natAbs + 1) z.natAbs).reverse.drop 1).all (· == 0) = true ∧ True) then
      0 :: (bytesLe (z.natAbs + 1) z.natAbs).reverse else (bytesLe (z.natAbs + 1) z.natAbs).reverse) = bytes
  have hval : leNat bytes.reverse = z.natAbs := by
    have : beNat bytes = z.natAbs := by
      rw [← hb]
      split
      · rw [beNat_zero_cons, hv]
      · rw [hv]
    rw [← beNat_reverse, List.reverse_reverse, this]
  have hlt := leNat_lt bytes.reverse
  rw [hval] at hlt
  refine ⟨bytes.reverse.length, ?_, ?_⟩
  · rcases Nat.eq_zero_or_pos bytes.reverse.length with h0 | h0
    · rw [h0] at hlt; simp at hlt; omega
    · exact h0
  · rw [beNat_reverse, (leNat_complement bytes.reverse).2.1 (by omega), hval]
    rw [Int.ofNat_sub (by omega), Nat.cast_pow]
    have : ((256 : Nat) : Int) = 256 := rfl
    rw [this]
    generalize (256 : Int) ^ bytes.reverse.length = x
    omega

/-! ### Integers -/

variable {F : Type} {toF64 : Rat → F}

theorem toCbor_small_rat (n : Rat) (hd : n.den = 1) (h0 : n.num ≠ 0) (h : n.num.natAbs < 2 ^ 64) :
    Number.toCbor toF64 n = .ok (.integer n.num) := by
  have hb : Number.bits n.num ≤ 64 := (Number.bits_le (by decide)).2 h
  simp only [Number.toCbor, hd, hb, if_true, Number.firstU64Digit, h0, if_false, Out.ofOption, Out.bind_ok,
    Nat.mod_eq_of_lt h]
  split
  · rw [show ((n.num.natAbs : Nat) : Int) = n.num by omega]
  · rw [show -((n.num.natAbs : Nat) : Int) = n.num by omega]

theorem toCbor_big_rat (n : Rat) (hd : n.den = 1) (h : 2 ^ 64 ≤ n.num.natAbs) :
    Number.toCbor toF64 n = .ok (.tag (if 0 < n.num then 2 else 3) (.bytes (toSignedBytesBe n.num))) := by
  have hb : ¬Number.bits n.num ≤ 64 := fun h' => by
    have := (Number.bits_le (k := 64) (by decide)).1 h'; omega
  simp only [Number.toCbor, hd, hb, if_true, if_false]

theorem toCbor_small (z : Int) (h0 : z ≠ 0) (h : z.natAbs < 2 ^ 64) :
    Number.toCbor toF64 (z : Rat) = .ok (.integer z) := by
  have := toCbor_small_rat (toF64 := toF64) (z : Rat) (Rat.den_intCast z) (by rwa [Rat.num_intCast])
    (by rwa [Rat.num_intCast])
  rwa [Rat.num_intCast] at this

theorem toCbor_big (z : Int) (h : 2 ^ 64 ≤ z.natAbs) :
    Number.toCbor toF64 (z : Rat) = .ok (.tag (if 0 < z then 2 else 3) (.bytes (toSignedBytesBe z))) := by
  have := toCbor_big_rat (toF64 := toF64) (z : Rat) (Rat.den_intCast z) (by rwa [Rat.num_intCast])
  exact this

theorem denotes_negative {c : Cbor F} {b : List UInt8} {z : Int} (h : c.DenotesInt z)
    (e : c = .tag 3 (.bytes b)) : z = -1 - beNat b := by
  cases h with
  | integer _ _ _ => cases e
  | positive _ => simp at e
  | negative b' => simp only [Cbor.tag.injEq, Cbor.bytes.injEq, true_and] at e; rw [e]

theorem toCbor_zero : Number.toCbor toF64 0 = .panic := by
  simp [Number.toCbor, Number.bits, Number.firstU64Digit, Out.ofOption]

theorem big_positive (z : Int) (h : 2 ^ 64 ≤ z) (c : Cbor F) (hc : Number.toCbor toF64 (z : Rat) = .ok c) :
    c.DenotesInt z := by
  rw [toCbor_big z (by omega), if_pos (by omega)] at hc
  simp only [Out.ok.injEq] at hc
  subst hc
  have := Cbor.DenotesInt.positive (F := F) (toSignedBytesBe z)
  rwa [beNat_signed_nonneg z (by omega)] at this

theorem big_negative (z : Int) (h : z ≤ -2 ^ 64) (c : Cbor F) (hc : Number.toCbor toF64 (z : Rat) = .ok c) :
    ¬c.DenotesInt z := by
  rw [toCbor_big z (by omega), if_neg (by omega)] at hc
  simp only [Out.ok.injEq] at hc
  subst hc
  obtain ⟨k, hk, hb⟩ := beNat_signed_neg z (by omega)
  intro hd
  have key := denotes_negative hd rfl
  rw [hb] at key
  obtain ⟨m, rfl⟩ : ∃ m, k = m + 1 := ⟨k - 1, by omega⟩
  rw [Int.pow_succ] at key
  omega

/-! ### Typed and untyped values -/

variable {collect : List (Cbor F × Cbor F) → List (Cbor F × Cbor F)} {R : Type} {ε : Type}

mutual
theorem typed_toCbor : (v : TypedValue R) → v.NoConstant → v.toCbor toF64 collect = v.untype.toCbor toF64 collect
  | .always v, _ => by rw [TypedValue.toCbor, TypedValue.untype]
  | .literal l, h => by
    rw [TypedValue.toCbor, TypedValue.untype]
    cases l with
    | unit v ty => cases h with | unit => rw [TypedLiteral.toCbor, TypedLiteral.untype, Value.toCbor]
    | boolean b ty => rw [TypedLiteral.toCbor, TypedLiteral.untype, Value.toCbor]
    | number n ty => rw [TypedLiteral.toCbor, TypedLiteral.untype, Value.toCbor]
    | byteString b ty => rw [TypedLiteral.toCbor, TypedLiteral.untype, Value.toCbor]
    | textString s ty => rw [TypedLiteral.toCbor, TypedLiteral.untype, Value.toCbor]
    | id s ty => rw [TypedLiteral.toCbor, TypedLiteral.untype, Value.toCbor]
  | .variant v ty i, h => by
    rw [TypedValue.toCbor, TypedValue.untype]
    cases h with | variant _ _ _ h => exact typed_toCbor v h
  | .map m ty, h => by
    rw [TypedValue.toCbor, TypedValue.untype, Value.toCbor]
    cases h with | map _ _ h => rw [typed_entriesToCbor m h]
  | .list l ty, h => by
    rw [TypedValue.toCbor, TypedValue.untype, Value.toCbor]
    cases h with | list _ _ h => rw [typed_itemsToCbor l h]

theorem typed_entriesToCbor : (m : List (Value × TypedValue R)) → (∀ e ∈ m, e.2.NoConstant) →
    TypedValue.entriesToCbor toF64 collect m = Value.entriesToCbor toF64 collect (TypedValue.untypeMap m)
  | [], _ => by rw [TypedValue.entriesToCbor, TypedValue.untypeMap, Value.entriesToCbor]
  | (k, v) :: m, h => by
    rw [TypedValue.entriesToCbor, TypedValue.untypeMap, Value.entriesToCbor, typed_toCbor v (h (k, v) (by simp)),
      typed_entriesToCbor m (fun e he => h e (by simp [he]))]

theorem typed_itemsToCbor : (l : List (TypedValue R)) → (∀ v ∈ l, v.NoConstant) →
    TypedValue.itemsToCbor toF64 collect l = Value.itemsToCbor toF64 collect (TypedValue.untypeList l)
  | [], _ => by rw [TypedValue.itemsToCbor, TypedValue.untypeList, Value.itemsToCbor]
  | v :: l, h => by
    rw [TypedValue.itemsToCbor, TypedValue.untypeList, Value.itemsToCbor, typed_toCbor v (h v (by simp)),
      typed_itemsToCbor l (fun e he => h e (by simp [he]))]
end

theorem lift_ok {α : Type} (a : α) : ((Out.ok a).lift : Out ε α) = .ok a := rfl

theorem lift_bind {α β : Type} (x : Out Empty α) (f : α → Out Empty β) :
    ((x.bind f).lift : Out ε β) = (x.lift : Out ε α).bind fun a => (f a).lift := by
  cases x with
  | ok a => rfl
  | err e => exact nomatch e
  | panic => rfl
  | fuel => rfl

variable {tagOf : R → Out ε (Option Nat)}

theorem addTag_none (hn : ∀ r, tagOf r = .ok none) (ty : Option R) (v : Cbor F) : addTag tagOf ty v = .ok v := by
  cases ty with
  | none => rfl
  | some r => rw [addTag, hn r]; rfl

mutual
/-- Without tags, both conversions agree. -/
theorem tagged_eq (hn : ∀ r, tagOf r = .ok none) : (v : TypedValue R) →
    v.toTaggedCbor toF64 collect tagOf = (v.toCbor toF64 collect).lift
  | .always v => by
    rw [TypedValue.toTaggedCbor, TypedValue.toCbor]
    simp only [addTag_none hn]
    cases Out.lift (Value.toCbor toF64 collect v) <;> rfl
  | .literal l => by
    rw [TypedValue.toTaggedCbor, TypedValue.toCbor]
    simp only [addTag_none hn]
    cases Out.lift (TypedLiteral.toCbor toF64 l) <;> rfl
  | .variant v ty i => by
    rw [TypedValue.toTaggedCbor, TypedValue.toCbor, tagged_eq hn v]
    simp only [addTag_none hn]
    cases Out.lift (TypedValue.toCbor toF64 collect v) <;> rfl
  | .map m ty => by
    rw [TypedValue.toTaggedCbor, TypedValue.toCbor, tagged_entries hn m, lift_bind]
    simp only [addTag_none hn, lift_ok]
  | .list l ty => by
    rw [TypedValue.toTaggedCbor, TypedValue.toCbor, tagged_items hn l, lift_bind]
    simp only [addTag_none hn, lift_ok]

theorem tagged_entries (hn : ∀ r, tagOf r = .ok none) : (m : List (Value × TypedValue R)) →
    TypedValue.entriesToTaggedCbor toF64 collect tagOf m = (TypedValue.entriesToCbor toF64 collect m).lift
  | [] => by rw [TypedValue.entriesToTaggedCbor, TypedValue.entriesToCbor]; rfl
  | (k, v) :: m => by
    rw [TypedValue.entriesToTaggedCbor, TypedValue.entriesToCbor, tagged_eq hn v, tagged_entries hn m]
    simp only [lift_bind, lift_ok]

theorem tagged_items (hn : ∀ r, tagOf r = .ok none) : (l : List (TypedValue R)) →
    TypedValue.itemsToTaggedCbor toF64 collect tagOf l = (TypedValue.itemsToCbor toF64 collect l).lift
  | [] => by rw [TypedValue.itemsToTaggedCbor, TypedValue.itemsToCbor]; rfl
  | v :: l => by
    rw [TypedValue.itemsToTaggedCbor, TypedValue.itemsToCbor, tagged_eq hn v, tagged_items hn l]
    simp only [lift_bind, lift_ok]
end

theorem lift_eq_ok {α : Type} {x : Out Empty α} {a : α} (h : (x.lift : Out ε α) = .ok a) : x = .ok a := by
  cases x with
  | ok b => simpa [Out.lift] using h
  | err e => exact nomatch e
  | panic => simp [Out.lift] at h
  | fuel => simp [Out.lift] at h

theorem addTag_spec {ty : Option R} {v c : Cbor F} (h : addTag tagOf ty v = .ok c) :
    (c = v ∧ ∀ r, ty = some r → tagOf r = .ok none) ∨
      ∃ r t, ty = some r ∧ tagOf r = .ok (some t) ∧ c = .tag t v := by
  cases ty with
  | none => simp only [addTag, Out.ok.injEq] at h; exact .inl ⟨h.symm, by simp⟩
  | some r =>
    simp only [addTag, Out.bind_eq_ok] at h
    obtain ⟨t, h1, h2⟩ := h
    cases t with
    | none =>
      simp only [Out.ok.injEq] at h2
      refine .inl ⟨h2.symm, ?_⟩
      intro r' hr; cases hr; exact h1
    | some t => simp only [Out.ok.injEq] at h2; exact .inr ⟨r, t, rfl, h1, h2.symm⟩

theorem addTag_addTags {ty : Option R} {u v c : Cbor F} (h : addTag tagOf ty v = .ok c) (hu : u.AddTags v) :
    u.AddTags c := by
  rcases addTag_spec h with ⟨rfl, _⟩ | ⟨_, t, _, _, rfl⟩
  · exact hu
  · exact .tag t hu

theorem addTags_map {m m' : List (Cbor F × Cbor F)}
    (h : List.Forall₂ (fun a b => a.1 = b.1 ∧ Cbor.AddTags a.2 b.2) m m') : Cbor.AddTags (.map m) (.map m') := by
  have : m.map Prod.fst = m'.map Prod.fst ∧ List.Forall₂ Cbor.AddTags (m.map Prod.snd) (m'.map Prod.snd) := by
    induction h with
    | nil => exact ⟨rfl, .nil⟩
    | cons h _ ih => exact ⟨by simp [h.1, ih.1], .cons h.2 ih.2⟩
  exact .map this.1 this.2

mutual
/-- Tags are added to the untagged encoding. -/
theorem tagged_addTags (hc : KeyBased collect) : (v : TypedValue R) → (c : Cbor F) →
    v.toTaggedCbor toF64 collect tagOf = .ok c →
    ∃ c', v.toCbor toF64 collect = .ok c' ∧ c'.AddTags c
  | .always v, c, h => by
    rw [TypedValue.toTaggedCbor, Out.bind_eq_ok] at h
    obtain ⟨u, h1, h2⟩ := h
    exact ⟨u, by rw [TypedValue.toCbor, lift_eq_ok h1], addTag_addTags h2 (.refl u)⟩
  | .literal l, c, h => by
    rw [TypedValue.toTaggedCbor, Out.bind_eq_ok] at h
    obtain ⟨u, h1, h2⟩ := h
    exact ⟨u, by rw [TypedValue.toCbor, lift_eq_ok h1], addTag_addTags h2 (.refl u)⟩
  | .variant v ty i, c, h => by
    rw [TypedValue.toTaggedCbor, Out.bind_eq_ok] at h
    obtain ⟨u, h1, h2⟩ := h
    obtain ⟨w, h3, h4⟩ := tagged_addTags hc v u h1
    exact ⟨w, by rw [TypedValue.toCbor, h3], addTag_addTags h2 h4⟩
  | .map m ty, c, h => by
    rw [TypedValue.toTaggedCbor, Out.bind_eq_ok] at h
    obtain ⟨u, h1, h2⟩ := h
    obtain ⟨w, h3, h4⟩ := tagged_addTags_entries hc m u h1
    exact ⟨.map (collect w), by rw [TypedValue.toCbor, h3]; rfl, addTag_addTags h2 (addTags_map (hc _ _ _ h4))⟩
  | .list l ty, c, h => by
    rw [TypedValue.toTaggedCbor, Out.bind_eq_ok] at h
    obtain ⟨u, h1, h2⟩ := h
    obtain ⟨w, h3, h4⟩ := tagged_addTags_items hc l u h1
    exact ⟨.array w, by rw [TypedValue.toCbor, h3]; rfl, addTag_addTags h2 (.array h4)⟩

theorem tagged_addTags_entries (hc : KeyBased collect) : (m : List (Value × TypedValue R)) →
    (c : List (Cbor F × Cbor F)) → TypedValue.entriesToTaggedCbor toF64 collect tagOf m = .ok c →
    ∃ c', TypedValue.entriesToCbor toF64 collect m = .ok c' ∧
      List.Forall₂ (fun a b => a.1 = b.1 ∧ Cbor.AddTags a.2 b.2) c' c
  | [], c, h => by
    simp only [TypedValue.entriesToTaggedCbor, Out.ok.injEq] at h
    subst h
    exact ⟨[], by rw [TypedValue.entriesToCbor], .nil⟩
  | (k, v) :: m, c, h => by
    simp only [TypedValue.entriesToTaggedCbor, Out.bind_eq_ok, Out.ok.injEq] at h
    obtain ⟨k', h1, v', h2, m', h3, rfl⟩ := h
    obtain ⟨w, h4, h5⟩ := tagged_addTags hc v v' h2
    obtain ⟨w', h6, h7⟩ := tagged_addTags_entries hc m m' h3
    exact ⟨(k', w) :: w', by rw [TypedValue.entriesToCbor, lift_eq_ok h1, Out.bind_ok, h4, Out.bind_ok, h6]; rfl,
      .cons ⟨rfl, h5⟩ h7⟩

theorem tagged_addTags_items (hc : KeyBased collect) : (l : List (TypedValue R)) → (c : List (Cbor F)) →
    TypedValue.itemsToTaggedCbor toF64 collect tagOf l = .ok c →
    ∃ c', TypedValue.itemsToCbor toF64 collect l = .ok c' ∧ List.Forall₂ Cbor.AddTags c' c
  | [], c, h => by
    simp only [TypedValue.itemsToTaggedCbor, Out.ok.injEq] at h
    subst h
    exact ⟨[], by rw [TypedValue.itemsToCbor], .nil⟩
  | v :: l, c, h => by
    simp only [TypedValue.itemsToTaggedCbor, Out.bind_eq_ok, Out.ok.injEq] at h
    obtain ⟨v', h2, m', h3, rfl⟩ := h
    obtain ⟨w, h4, h5⟩ := tagged_addTags hc v v' h2
    obtain ⟨w', h6, h7⟩ := tagged_addTags_items hc l m' h3
    exact ⟨w :: w', by rw [TypedValue.itemsToCbor, h4, Out.bind_ok, h6]; rfl, .cons h5 h7⟩
end

/-- The outermost step adds the tag of the layout. -/
theorem tagged_last (v : TypedValue R) (c : Cbor F) (h : v.toTaggedCbor toF64 collect tagOf = .ok c) :
    ∃ w, addTag tagOf v.type w = .ok c := by
  cases v with
  | literal l => rw [TypedValue.toTaggedCbor, Out.bind_eq_ok] at h; obtain ⟨u, _, h⟩ := h; exact ⟨u, h⟩
  | «variant» v ty i => rw [TypedValue.toTaggedCbor, Out.bind_eq_ok] at h; obtain ⟨u, _, h⟩ := h; exact ⟨u, h⟩
  | map m ty => rw [TypedValue.toTaggedCbor, Out.bind_eq_ok] at h; obtain ⟨u, _, h⟩ := h; exact ⟨_, h⟩
  | list l ty => rw [TypedValue.toTaggedCbor, Out.bind_eq_ok] at h; obtain ⟨u, _, h⟩ := h; exact ⟨_, h⟩
  | always v => rw [TypedValue.toTaggedCbor, Out.bind_eq_ok] at h; obtain ⟨u, _, h⟩ := h; exact ⟨u, h⟩

end Verif
