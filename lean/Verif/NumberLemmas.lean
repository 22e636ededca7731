import Verif.Number
import Verif.NumberSpec
import Mathlib.Data.List.Perm.Subperm
import Mathlib.Algebra.Order.Field.Rat
import Mathlib.Tactic.FieldSimp
import Mathlib.Tactic.Ring
import Mathlib.Tactic.Linarith

/-!
# Lemmas about decimal representations
-/

set_option linter.unusedSimpArgs false

namespace Verif.Number

/-! ### The division loop -/

/-- The remainder after `k` steps. -/
def remAt (denom r k : Nat) : Nat := r * 10 ^ k % denom

theorem remAt_succ (denom r k : Nat) : remAt denom r k * 10 % denom = remAt denom r (k + 1) := by
  simp only [remAt, Nat.pow_succ, Nat.mod_mul_mod, Nat.mul_assoc]

theorem quot_succ {denom : Nat} (h : 0 < denom) (r k : Nat) :
    r * 10 ^ (k + 1) / denom = 10 * (r * 10 ^ k / denom) + remAt denom r k * 10 / denom := by
  have e : r * 10 ^ (k + 1) = denom * (10 * (r * 10 ^ k / denom)) + remAt denom r k * 10 := by
    have := Nat.div_add_mod (r * 10 ^ k) denom
    simp only [remAt, Nat.pow_succ]
    calc r * (10 ^ k * 10) = (r * 10 ^ k) * 10 := by ring
      _ = (denom * (r * 10 ^ k / denom) + r * 10 ^ k % denom) * 10 := by rw [this]
      _ = _ := by ring
  rw [e, Nat.mul_add_div h]

theorem ofDigitChars_snoc (s : List Char) (d : Nat) (h : d < 10) (i : Nat) :
    Nat.ofDigitChars 10 (s ++ Nat.toDigits 10 d) i = 10 * Nat.ofDigitChars 10 s i + d := by
  rw [Nat.ofDigitChars_append, Nat.toDigits_of_lt_base h, Nat.ofDigitChars_cons_digitChar_of_lt_ten h,
    Nat.ofDigitChars_nil]

/-- The state of the loop after `k` steps. -/
structure Inv (denom r k rem : Nat) (seen : List Nat) (fraction : List Char) : Prop where
  rem_eq : rem = remAt denom r k
  mem_seen : ∀ x, x ∈ seen ↔ ∃ j, j < k ∧ remAt denom r j = x
  nodup : seen.Nodup
  len_seen : seen.length = k
  nonzero : ∀ x ∈ seen, x ≠ 0
  digits : ∀ c ∈ fraction, c.isDigit = true
  len : fraction.length = k
  value : Nat.ofDigitChars 10 fraction 0 = r * 10 ^ k / denom

theorem Inv.step {denom r k rem : Nat} {seen : List Nat} {fraction : List Char} (hd : 0 < denom)
    (h : Inv denom r k rem seen fraction) (h0 : ¬(rem = 0 ∨ rem ∈ seen)) :
    Inv denom r (k + 1) (rem * 10 % denom) (rem :: seen) (fraction ++ Nat.toDigits 10 (rem * 10 / denom)) := by
  obtain ⟨hr, hm, hn, hl, hz, hdig, hlen, hv⟩ := h
  simp only [not_or] at h0
  have hlt : rem < denom := by rw [hr]; exact Nat.mod_lt _ hd
  have h10 : rem * 10 / denom < 10 := by
    rw [Nat.div_lt_iff_lt_mul hd]; omega
  refine ⟨by rw [hr, remAt_succ], fun x => ?_, List.nodup_cons.2 ⟨h0.2, hn⟩, by simp [hl], ?_, ?_, ?_, ?_⟩
  · simp only [List.mem_cons, hm]
    constructor
    · rintro (rfl | ⟨j, hj, rfl⟩)
      · exact ⟨k, by omega, hr.symm⟩
      · exact ⟨j, by omega, rfl⟩
    · rintro ⟨j, hj, rfl⟩
      rcases Nat.lt_succ_iff_lt_or_eq.1 hj with hj | rfl
      · exact .inr ⟨j, hj, rfl⟩
      · exact .inl hr.symm
  · intro x hx
    rcases List.mem_cons.1 hx with rfl | hx
    · exact h0.1
    · exact hz x hx
  · intro c hc
    rcases List.mem_append.1 hc with hc | hc
    · exact hdig c hc
    · exact Nat.isDigit_of_mem_toDigits (by decide) (by decide) hc
  · rw [List.length_append, hlen, Nat.toDigits_of_lt_base h10]; rfl
  · rw [ofDigitChars_snoc _ _ h10, hv, quot_succ hd, hr]

theorem loop_eq (denom fuel rem : Nat) (seen : List Nat) (fraction : List Char) :
    fractionLoop denom fuel rem seen fraction =
      if rem = 0 ∨ rem ∈ seen then .ok (rem, fraction)
      else match fuel with
        | 0 => .fuel
        | fuel + 1 => fractionLoop denom fuel (rem * 10 % denom) (rem :: seen)
            (fraction ++ Nat.toDigits 10 (rem * 10 / denom)) := by
  rw [fractionLoop.eq_def]
  rfl

/-- The loop stops: remainders are distinct and smaller than the denominator. -/
theorem loop_spec {denom r : Nat} (hd : 0 < denom) (fuel k rem : Nat) (seen : List Nat) (fraction : List Char)
    (h : Inv denom r k rem seen fraction) (hf : denom ≤ fuel + k) :
    ∃ n rem' seen' fraction', fractionLoop denom fuel rem seen fraction = .ok (rem', fraction') ∧
      Inv denom r n rem' seen' fraction' ∧ (rem' = 0 ∨ rem' ∈ seen') := by
  induction fuel generalizing k rem seen fraction with
  | zero =>
    rw [loop_eq]
    by_cases h0 : rem = 0 ∨ rem ∈ seen
    · exact ⟨k, rem, seen, fraction, by rw [if_pos h0], h, h0⟩
    · exfalso
      have h' := h.step hd h0
      have hs : (0 :: rem :: seen) ⊆ List.range denom := by
        intro x hx
        rw [List.mem_range]
        rcases List.mem_cons.1 hx with rfl | hx
        · exact hd
        · obtain ⟨j, _, rfl⟩ := (h'.mem_seen x).1 hx
          exact Nat.mod_lt _ hd
      have hn : (0 :: rem :: seen).Nodup :=
        List.nodup_cons.2 ⟨fun hx => h'.nonzero 0 hx rfl, h'.nodup⟩
      have := (List.subperm_of_subset hn hs).length_le
      have := h.len_seen
      simp only [List.length_cons, List.length_range] at *
      omega
  | succ fuel ih =>
    rw [loop_eq]
    by_cases h0 : rem = 0 ∨ rem ∈ seen
    · exact ⟨k, rem, seen, fraction, by rw [if_pos h0], h, h0⟩
    · rw [if_neg h0]
      exact ih (k + 1) _ _ _ (h.step hd h0) (by omega)

theorem inv_start {denom r : Nat} (h : r < denom) : Inv denom r 0 r [] [] :=
  ⟨by simp [remAt, Nat.mod_eq_of_lt h], by simp, .nil, rfl, by simp, by simp, rfl, by
    simp [Nat.div_eq_of_lt h]⟩

/-- Remainders that repeat never become zero. -/
theorem not_zero_of_repeat {denom r n j : Nat} (hj : j < n) (he : remAt denom r j = remAt denom r n)
    (hz : remAt denom r n ≠ 0) (k : Nat) : remAt denom r k ≠ 0 := by
  have add : ∀ a b, remAt denom r a = remAt denom r b → ∀ t, remAt denom r (a + t) = remAt denom r (b + t) := by
    intro a b hab t
    induction t with
    | zero => exact hab
    | succ t ih => rw [← Nat.add_assoc, ← Nat.add_assoc, ← remAt_succ, ← remAt_succ, ih]
  have per : ∀ t, remAt denom r (j + t * (n - j)) = remAt denom r j := by
    intro t
    induction t with
    | zero => simp
    | succ t ih =>
      have h1 := add _ _ he.symm (t * (n - j))
      have h2 : n + t * (n - j) = j + (t + 1) * (n - j) := by rw [Nat.succ_mul]; omega
      rw [h2] at h1
      rw [h1, ih]
  have zero : ∀ a, remAt denom r a = 0 → ∀ t, remAt denom r (a + t) = 0 := by
    intro a ha t
    induction t with
    | zero => exact ha
    | succ t ih => rw [← Nat.add_assoc, ← remAt_succ, ih]; simp
  intro hk
  have hge : k ≤ j + k * (n - j) := by
    have : k * 1 ≤ k * (n - j) := Nat.mul_le_mul_left _ (by omega)
    omega
  have h1 := zero k hk (j + k * (n - j) - k)
  rw [Nat.add_sub_cancel' hge, per] at h1
  exact hz (by rw [← he, h1])

/-! ### The whole function -/

/-- The magnitude of the numerator. -/
theorem magnitude (n : Rat) : (if n.num < 0 then (-n.num).toNat else n.num.toNat) = n.num.natAbs := by
  split <;> omega

/-- The result of `decimal`. -/
theorem decimal_spec (n : Rat) (fuel : Nat) (hf : n.den ≤ fuel) :
    ∃ k f, (∀ c ∈ f, c.isDigit = true) ∧ f.length = k ∧
      Nat.ofDigitChars 10 f 0 = n.num.natAbs % n.den * 10 ^ k / n.den ∧
      ((remAt n.den (n.num.natAbs % n.den) k = 0 ∧
          decimal fuel n = .ok (some ((if n.num < 0 then ['-'] else []) ++ intToString (n.num.tdiv n.den) ++
            (if f = [] then [] else '.' :: f)))) ∨
        ((∀ k, remAt n.den (n.num.natAbs % n.den) k ≠ 0) ∧ decimal fuel n = .ok none)) := by
  have hd : 0 < n.den := n.den_pos
  obtain ⟨k, rem, seen, f, he, hi, hs⟩ := loop_spec hd fuel 0 _ [] [] (inv_start (Nat.mod_lt n.num.natAbs hd))
    (by omega)
  refine ⟨k, f, hi.digits, hi.len, hi.value, ?_⟩
  by_cases h0 : rem = 0
  · left
    refine ⟨by rw [← hi.rem_eq, h0], ?_⟩
    simp only [decimal, magnitude, he, Out.bind_ok, h0, if_true]
    by_cases hfr : f = []
    · simp [hfr]
    · simp [hfr]
  · right
    constructor
    · obtain ⟨j, hj, hje⟩ := (hi.mem_seen rem).1 (hs.resolve_left h0)
      exact not_zero_of_repeat hj (hje.trans hi.rem_eq) (by rw [← hi.rem_eq]; exact h0)
    · simp only [decimal, magnitude, he, Out.bind_ok, h0, if_false]

theorem remAt_zero_iff {denom m k : Nat} : remAt denom (m % denom) k = 0 ↔ denom ∣ m * 10 ^ k := by
  rw [remAt, Nat.mod_mul_mod, Nat.dvd_iff_mod_eq_zero]

/-- A finite decimal expansion is a power of ten that clears the denominator. -/
theorem finiteDecimal_iff (n : Rat) : FiniteDecimal n ↔ ∃ k, n.den ∣ n.num.natAbs * 10 ^ k := by
  have hden : (n.den : Rat) ≠ 0 := by exact_mod_cast n.den_nz
  have hn : n = (n.num : Rat) / (n.den : Rat) := (Rat.num_div_den n).symm
  constructor
  · rintro ⟨m, k, h⟩
    refine ⟨k, ?_⟩
    have h10 : ((10 : Rat) ^ k) ≠ 0 := by positivity
    have h1 : (n.num : Rat) * 10 ^ k = m * n.den := by
      rw [hn] at h
      field_simp at h
      linarith
    have h2 : n.num * 10 ^ k = m * (n.den : Int) := by exact_mod_cast h1
    have h3 : (n.den : Int) ∣ n.num * 10 ^ k := ⟨m, by rw [h2, Int.mul_comm]⟩
    have h4 := Int.natAbs_dvd_natAbs.2 h3
    rwa [Int.natAbs_mul, Int.natAbs_natCast, Int.natAbs_pow] at h4
  · rintro ⟨k, c, hc⟩
    have h10 : ((10 : Rat) ^ k) ≠ 0 := by positivity
    refine ⟨n.num.sign * c, k, ?_⟩
    have h1 : n.num * 10 ^ k = n.num.sign * c * n.den := by
      have h2 : (n.num.natAbs : Int) * 10 ^ k = n.den * c := by exact_mod_cast hc
      calc n.num * 10 ^ k = n.num.sign * ((n.num.natAbs : Int) * 10 ^ k) := by
            rw [← Int.mul_assoc, Int.sign_mul_natAbs]
        _ = _ := by rw [h2]; ring
    have h3 : (n.num : Rat) * 10 ^ k = ((n.num.sign * c : Int) : Rat) * n.den := by exact_mod_cast h1
    rw [eq_div_iff h10]
    nth_rw 1 [hn]
    field_simp
    linarith

/-! ### Numerals -/

theorem toDigits_leading (n : Nat) (h : (Nat.toDigits 10 n).head? = some '0') : Nat.toDigits 10 n = ['0'] := by
  induction n using Nat.strongRecOn with
  | ind n ih =>
    by_cases hn : n < 10
    · rw [Nat.toDigits_of_lt_base hn] at h ⊢
      simpa using h
    · have hb := Nat.toDigits_of_base_le (b := 10) (n := n) (by decide) (by omega)
      rw [hb] at h
      have hne : Nat.toDigits 10 (n / 10) ≠ [] := Nat.toDigits_ne_nil
      obtain ⟨c, l, hl⟩ := List.exists_cons_of_ne_nil hne
      have h' : (Nat.toDigits 10 (n / 10)).head? = some '0' := by rw [hl] at h ⊢; simpa using h
      have := ih (n / 10) (by omega) h'
      have h0 : n / 10 = 0 := by
        have h1 := Nat.ofDigitChars_toDigits (b := 10) (n := n / 10) (by decide) (by decide)
        rw [this] at h1
        simpa [Nat.ofDigitChars] using h1.symm
      omega

theorem isDigit_toDigits {n : Nat} : ∀ c ∈ Nat.toDigits 10 n, c.isDigit = true :=
  fun _ hc => Nat.isDigit_of_mem_toDigits (by decide) (by decide) hc

/-- Above `-1`, the integer part has no sign. -/
theorem intToString_quot (n : Rat) (h : -1 < n) :
    intToString (n.num.tdiv n.den) = Nat.toDigits 10 (n.num.natAbs / n.den) := by
  have hd : 0 < n.den := n.den_pos
  by_cases hn : n.num < 0
  · have hlt : n.num.natAbs < n.den := by
      have hq : (n.num : Rat) / n.den = n := Rat.num_div_den n
      have hdp : (0 : Rat) < n.den := by exact_mod_cast hd
      have h1 : (-(n.den : Int) : Rat) < n.num := by
        rw [← hq, lt_div_iff₀ hdp] at h
        push_cast
        linarith
      have h2 : -(n.den : Int) < n.num := by exact_mod_cast h1
      omega
    have : n.num.tdiv n.den = 0 := by
      have e : n.num = -(n.num.natAbs : Int) := by omega
      rw [e, Int.neg_tdiv, ← Int.ofNat_tdiv, Nat.div_eq_of_lt hlt]; rfl
    rw [this, Nat.div_eq_of_lt hlt]
    rfl
  · have e : n.num = (n.num.natAbs : Int) := by omega
    have : n.num.tdiv n.den = ((n.num.natAbs / n.den : Nat) : Int) := by
      rw [e, ← Int.ofNat_tdiv, Int.natAbs_natCast]
    rw [this, intToString, if_neg (Int.not_lt.2 (Int.natCast_nonneg _)), Int.natAbs_natCast]

theorem decimalRepresentation_eq {n : Rat} {s : Option (List Char)} (h : decimal n.den n = .ok s) :
    decimalRepresentation n = s := by
  rw [decimalRepresentation, h]

theorem decimalRepresentation_isSome (n : Rat) :
    (∃ s, decimalRepresentation n = some s) ↔ FiniteDecimal n := by
  obtain ⟨k, f, _, _, _, h | h⟩ := decimal_spec n n.den (Nat.le_refl _)
  · rw [decimalRepresentation_eq h.2, finiteDecimal_iff]
    exact ⟨fun _ => ⟨k, remAt_zero_iff.1 h.1⟩, fun _ => ⟨_, rfl⟩⟩
  · rw [decimalRepresentation_eq h.2, finiteDecimal_iff]
    constructor
    · rintro ⟨s, hs⟩; cases hs
    · rintro ⟨k, hk⟩; exact absurd (remAt_zero_iff.2 hk) (h.1 k)

/-- The sign, the integer part and the fraction are a numeral of the number. -/
theorem numeral_parts (n : Rat) {k : Nat} {f : List Char} (hdig : ∀ c ∈ f, c.isDigit = true) (hlen : f.length = k)
    (hval : Nat.ofDigitChars 10 f 0 = n.num.natAbs % n.den * 10 ^ k / n.den)
    (hh : remAt n.den (n.num.natAbs % n.den) k = 0) :
    IsNumeral ((if n.num < 0 then ['-'] else []) ++ Nat.toDigits 10 (n.num.natAbs / n.den) ++
      (if f = [] then [] else '.' :: f)) n := by
  have hd : 0 < n.den := n.den_pos
  refine ⟨decide (n.num < 0), Nat.toDigits 10 (n.num.natAbs / n.den), f, ?_, Nat.toDigits_ne_nil,
    toDigits_leading _, ?_, ?_⟩
  · intro c hc
    rcases List.mem_append.1 hc with hc | hc
    · exact isDigit_toDigits c hc
    · exact hdig c hc
  · simp
  · have hden : (n.den : Rat) ≠ 0 := by exact_mod_cast n.den_nz
    have h10 : ((10 : Rat) ^ k) ≠ 0 := by positivity
    rw [Nat.ofDigitChars_append, Nat.ofDigitChars_toDigits (by decide) (by decide),
      Nat.ofDigitChars_eq_ofDigitChars_zero, hval, hlen]
    have hz := remAt_zero_iff.1 hh
    have hm : n.num.natAbs = n.den * (n.num.natAbs / n.den) + n.num.natAbs % n.den := (Nat.div_add_mod _ _).symm
    obtain ⟨c, hc⟩ : n.den ∣ n.num.natAbs % n.den * 10 ^ k := by
      rw [Nat.dvd_iff_mod_eq_zero]; exact hh
    have hq : n.num.natAbs % n.den * 10 ^ k / n.den = c := by rw [hc, Nat.mul_div_cancel_left _ hd]
    rw [hq]
    have h1 : n.num.natAbs * 10 ^ k = n.den * (10 ^ k * (n.num.natAbs / n.den) + c) := by
      nth_rw 1 [hm]
      rw [Nat.add_mul, hc]; ring
    have h2 : (n.num.natAbs : Rat) * 10 ^ k = n.den * ((10 ^ k * (n.num.natAbs / n.den) + c : Nat) : Rat) := by
      exact_mod_cast h1
    have h3 : (n.num : Rat) = (if n.num < 0 then (-1 : Rat) else 1) * n.num.natAbs := by
      split
      · have : n.num = -1 * (n.num.natAbs : Int) := by omega
        have h := congrArg (fun z : Int => (z : Rat)) this
        simpa only [Int.cast_mul, Int.cast_neg, Int.cast_one, Int.cast_natCast] using h
      · have : n.num = 1 * (n.num.natAbs : Int) := by omega
        have h := congrArg (fun z : Int => (z : Rat)) this
        simpa only [Int.cast_mul, Int.cast_neg, Int.cast_one, Int.cast_natCast] using h
    have h4 : (n.num.natAbs : Rat) / n.den = ((10 ^ k * (n.num.natAbs / n.den) + c : Nat) : Rat) / 10 ^ k := by
      field_simp
      linarith
    calc n = (n.num : Rat) / n.den := (Rat.num_div_den n).symm
      _ = (if n.num < 0 then (-1 : Rat) else 1) * ((n.num.natAbs : Rat) / n.den) := by rw [h3]; split <;> ring_nf
      _ = _ := by rw [h4]; simp

/-- Above `-1`, the string returned is a numeral of the number. -/
theorem decimalRepresentation_numeral (n : Rat) (hn : -1 < n) {s : List Char}
    (h : decimalRepresentation n = some s) : IsNumeral s n := by
  obtain ⟨k, f, hdig, hlen, hval, hh | hh⟩ := decimal_spec n n.den (Nat.le_refl _)
  swap
  · rw [decimalRepresentation_eq hh.2] at h; cases h
  rw [decimalRepresentation_eq hh.2, Option.some.injEq] at h
  rw [intToString_quot n hn] at h
  exact h ▸ numeral_parts n hdig hlen hval hh.1

/-- From `-1` down, the sign is printed twice. -/
theorem decimalRepresentation_negative (n : Rat) (hn : n ≤ -1) {s : List Char}
    (h : decimalRepresentation n = some s) : ∃ t, s = '-' :: '-' :: t ∧ IsNumeral ('-' :: t) n := by
  obtain ⟨k, f, hdig, hlen, hval, hh | hh⟩ := decimal_spec n n.den (Nat.le_refl _)
  swap
  · rw [decimalRepresentation_eq hh.2] at h; cases h
  rw [decimalRepresentation_eq hh.2, Option.some.injEq] at h
  have hd : 0 < n.den := n.den_pos
  have hq : (n.num : Rat) / n.den = n := Rat.num_div_den n
  have hdp : (0 : Rat) < n.den := by exact_mod_cast hd
  have h1 : (n.num : Rat) ≤ (-(n.den : Int) : Rat) := by
    rw [← hq, div_le_iff₀ hdp] at hn
    push_cast
    linarith
  have h2 : n.num ≤ -(n.den : Int) := by exact_mod_cast h1
  have e : n.num = -(n.num.natAbs : Int) := by omega
  have h3 : n.num.tdiv n.den < 0 := by
    have : 0 < n.num.natAbs / n.den := Nat.div_pos (by omega) hd
    rw [e, Int.neg_tdiv, ← Int.ofNat_tdiv]
    have : (0 : Int) < ((n.num.natAbs / n.den : Nat) : Int) := by exact_mod_cast this
    omega
  have h4 : (n.num.tdiv n.den).natAbs = n.num.natAbs / n.den := by
    rw [Int.natAbs_tdiv, Int.natAbs_natCast]; rfl
  rw [if_pos (by omega), intToString, if_pos h3, h4] at h
  have := numeral_parts n hdig hlen hval hh.1
  rw [if_pos (by omega)] at this
  exact ⟨_, by rw [← h]; rfl, this⟩

theorem not_numeral_double_minus {t : List Char} {q : Rat} : ¬IsNumeral ('-' :: '-' :: t) q := by
  rintro ⟨neg, i, f, hd, hi, _, hs, _⟩
  obtain ⟨c, l, rfl⟩ := List.exists_cons_of_ne_nil hi
  have hc : c.isDigit = true := hd c (by simp)
  cases neg
  · simp only [Bool.false_eq_true, if_false, List.nil_append, List.cons_append, List.cons.injEq] at hs
    rw [← hs.1] at hc; exact absurd hc (by decide)
  · simp only [if_true, List.nil_append, List.cons_append, List.cons.injEq, true_and] at hs
    rw [← hs.1] at hc; exact absurd hc (by decide)

/-! ### Reading numerals -/

theorem spanDigits_append {l r : List Char} (hl : ∀ c ∈ l, c.isDigit = true)
    (hr : ∀ c ∈ r.head?, c.isDigit = false) : spanDigits (l ++ r) = (l, r) := by
  induction l with
  | nil =>
    cases r with
    | nil => rfl
    | cons c r => simp [spanDigits, hr c (by simp)]
  | cons c l ih =>
    simp only [List.cons_append, spanDigits, hl c (by simp), if_true, ih (fun c hc => hl c (by simp [hc]))]

/-- The two forms of numerals. -/
theorem numeral_cases {s : List Char} {q : Rat} (h : IsNumeral s q) :
    ∃ (neg : Bool) (c : Char) (i f : List Char), c.isDigit = true ∧ (∀ d ∈ i, d.isDigit = true) ∧
      (∀ d ∈ f, d.isDigit = true) ∧ (c = '0' → i = []) ∧
      s = (if neg then ['-'] else []) ++ c :: i ++ (if f = [] then [] else '.' :: f) ∧
      q = (if neg then (-1 : Rat) else 1) *
        ((Nat.ofDigitChars 10 (c :: i ++ f) 0 : Rat) / (10 : Rat) ^ f.length) := by
  obtain ⟨neg, i, f, hd, hi, hz, hs, hq⟩ := h
  obtain ⟨c, l, rfl⟩ := List.exists_cons_of_ne_nil hi
  exact ⟨neg, c, l, f, hd c (by simp), fun d hm => hd d (by simp [hm]), fun d hm => hd d (by simp [hm]),
    fun h => by simpa [h] using hz, hs, hq⟩

theorem isDigit_ne {c d : Char} (h : c.isDigit = true) (hd : d.isDigit = false) : c ≠ d := by
  rintro rfl; rw [h] at hd; cases hd

theorem stripMinus_digit {c : Char} (h : c.isDigit = true) (r : List Char) :
    stripMinus (c :: r) = (false, c :: r) := by
  have := isDigit_ne (d := '-') h (by decide)
  rw [stripMinus.eq_def]
  split
  · simp_all
  · rfl

theorem isJson_eq (s : List Char) (c : Char) (i r : List Char) (h : spanDigits (stripMinus s).2 = (c :: i, r))
    (h0 : c = '0' → i = []) (hr : (r = [] ∨ ∃ d f, r = '.' :: d :: f ∧ spanDigits (d :: f) = (d :: f, []))) :
    isJson s = true := by
  rw [isJson, h]
  have hc : (decide (c ≠ '0') || decide (i = [])) = true := by
    by_cases hc : c = '0'
    · simp [h0 hc]
    · simp [hc]
  rcases hr with rfl | ⟨d, f, rfl, hf⟩
  · simp only [hc, jsonExponent, Bool.and_true]
  · simp only [hc, hf, jsonExponent, Bool.and_true]

theorem isJson_of_numeral {s : List Char} {q : Rat} (h : IsNumeral s q) : isJson s = true := by
  obtain ⟨neg, c, i, f, hc, hi, hf, hz, rfl, _⟩ := numeral_cases h
  have hstrip : (stripMinus ((if neg then ['-'] else []) ++ c :: i ++ (if f = [] then [] else '.' :: f))).2 =
      c :: i ++ (if f = [] then [] else '.' :: f) := by
    cases neg
    · simp only [Bool.false_eq_true, if_false, List.nil_append, List.cons_append, stripMinus_digit hc]
    · rfl
  have hspan : spanDigits (c :: i ++ (if f = [] then [] else '.' :: f)) =
      (c :: i, if f = [] then [] else '.' :: f) := by
    refine spanDigits_append ?_ ?_
    · intro d hd
      rcases List.mem_cons.1 hd with rfl | hd
      · exact hc
      · exact hi d hd
    · intro d hd
      split at hd
      · simp at hd
      · simp at hd; subst hd; decide
  refine isJson_eq _ c i _ (by rw [hstrip, hspan]) hz ?_
  cases f with
  | nil => exact .inl rfl
  | cons d f =>
    refine .inr ⟨d, f, rfl, ?_⟩
    have := spanDigits_append (l := d :: f) (r := []) hf (by simp)
    simpa using this

/-! ### The grammar of JSON numbers -/

theorem spanDigits_spec (s : List Char) : s = (spanDigits s).1 ++ (spanDigits s).2 ∧
    (∀ c ∈ (spanDigits s).1, c.isDigit = true) ∧ (∀ c ∈ (spanDigits s).2.head?, c.isDigit = false) := by
  induction s with
  | nil => simp [spanDigits]
  | cons c s ih =>
    simp only [spanDigits]
    split
    · rename_i h
      obtain ⟨h1, h2, h3⟩ := ih
      refine ⟨by rw [List.cons_append, ← h1], fun d hd => ?_, h3⟩
      rcases List.mem_cons.1 hd with rfl | hd
      · exact h
      · exact h2 d hd
    · rename_i h
      exact ⟨rfl, by simp, by simpa using h⟩

theorem spanDigits_eq {s d r : List Char} (h : spanDigits s = (d, r)) :
    s = d ++ r ∧ (∀ c ∈ d, c.isDigit = true) ∧ (∀ c ∈ r.head?, c.isDigit = false) := by
  have := spanDigits_spec s
  rwa [h] at this

/-- Removes the optional sign of an exponent. -/
theorem exponentSign (s : List Char) : ∃ sign, (sign = [] ∨ sign = ['+'] ∨ sign = ['-']) ∧
    s = sign ++ skipSign s := by
  rw [skipSign.eq_def]
  split
  · exact ⟨['+'], by simp, rfl⟩
  · exact ⟨['-'], by simp, rfl⟩
  · exact ⟨[], by simp, rfl⟩

theorem jsonExponent_iff (s : List Char) : jsonExponent s = true ↔ s = [] ∨ IsExponent s := by
  cases s with
  | nil => simp [jsonExponent]
  | cons c s =>
    simp only [jsonExponent, Bool.and_eq_true, Bool.or_eq_true, decide_eq_true_eq, reduceCtorEq, false_or]
    constructor
    · rintro ⟨hc, h⟩
      obtain ⟨sign, hs, e⟩ := exponentSign s
      split at h
      · cases h
      · rename_i ds r hne heq
        obtain ⟨h1, h2, -⟩ := spanDigits_eq heq
        simp only [decide_eq_true_eq] at h
        subst h
        rw [List.append_nil] at h1
        exact ⟨c, sign, ds, hc, hs, hne, h2, by rw [← h1, ← e]⟩
    · rintro ⟨c', sign, ds, hc, hs, hne, hd, e⟩
      obtain ⟨rfl, rfl⟩ := List.cons.inj e
      refine ⟨hc, ?_⟩
      obtain ⟨d, ds, rfl⟩ := List.exists_cons_of_ne_nil hne
      have hd' : d.isDigit = true := hd d (by simp)
      have hspan : spanDigits (d :: ds) = (d :: ds, []) := by
        have := spanDigits_append (l := d :: ds) (r := []) hd (by simp)
        rwa [List.append_nil] at this
      have h1 := isDigit_ne (d := '-') hd' (by decide)
      have h2 := isDigit_ne (d := '+') hd' (by decide)
      have : skipSign (sign ++ d :: ds) = d :: ds := by
        rcases hs with rfl | rfl | rfl
        · rw [List.nil_append, skipSign.eq_def]
          split
          · simp_all
          · simp_all
          · rfl
        · rfl
        · rfl
      rw [this, hspan]
      rfl

theorem exponent_head {e : List Char} (h : e = [] ∨ IsExponent e) :
    (∀ c ∈ e.head?, c.isDigit = false) ∧ (∀ r, e ≠ '.' :: r) := by
  rcases h with rfl | ⟨c, sign, ds, hc, -, -, -, rfl⟩
  · simp
  · rcases hc with rfl | rfl
    · exact ⟨by simp, by simp⟩
    · exact ⟨by simp, by simp⟩

theorem isJson_iff (s : List Char) : isJson s = true ↔ IsJsonNumber s := by
  constructor
  · intro h
    rw [isJson] at h
    have hs : ∃ neg : Bool, s = (if neg then ['-'] else []) ++ (stripMinus s).2 := by
      rw [stripMinus.eq_def]
      split
      · exact ⟨true, rfl⟩
      · exact ⟨false, rfl⟩
    obtain ⟨neg, hs⟩ := hs
    split at h
    · cases h
    · rename_i c i r heq
      obtain ⟨h1, h2, -⟩ := spanDigits_eq heq
      simp only [Bool.and_eq_true, Bool.or_eq_true, decide_eq_true_eq, ne_eq, decide_not, Bool.not_eq_true',
        decide_eq_false_iff_not] at h
      obtain ⟨hz, h⟩ := h
      have hz' : (c :: i).head? = some '0' → c :: i = ['0'] := by
        intro h
        simp only [List.head?_cons, Option.some.injEq] at h
        subst h
        simpa using hz
      split at h
      · rename_i r
        split at h
        · cases h
        · rename_i f r' hne heq'
          obtain ⟨h3, h4, -⟩ := spanDigits_eq heq'
          refine ⟨_, (if neg then ['-'] else []) ++ (c :: i) ++ (if f = [] then [] else '.' :: f), r',
            ⟨neg, c :: i, f, ?_, by simp, hz', rfl, rfl⟩, (jsonExponent_iff _).1 h, ?_⟩
          · intro x hx
            rcases List.mem_append.1 hx with hx | hx
            · exact h2 x hx
            · exact h4 x hx
          · rw [if_neg hne, hs, h1, h3]
            simp
      · refine ⟨_, (if neg then ['-'] else []) ++ (c :: i) ++ [], r,
          ⟨neg, c :: i, [], ?_, by simp, hz', rfl, rfl⟩, (jsonExponent_iff _).1 h, ?_⟩
        · intro x hx
          exact h2 x (by simpa using hx)
        · conv_lhs => rw [hs, h1]
          simp
  · rintro ⟨q, t, e, ht, he, rfl⟩
    obtain ⟨neg, c, i, f, hc, hi, hf, hz, rfl, _⟩ := numeral_cases ht
    obtain ⟨hh, hdot⟩ := exponent_head he
    have hstrip : (stripMinus ((if neg then ['-'] else []) ++ c :: i ++ (if f = [] then [] else '.' :: f) ++ e)).2 =
        c :: i ++ ((if f = [] then [] else '.' :: f) ++ e) := by
      cases neg
      · simp only [Bool.false_eq_true, if_false, List.nil_append, List.cons_append, List.append_assoc, stripMinus_digit hc]
      · simp [stripMinus]
    have hspan : spanDigits (c :: i ++ ((if f = [] then [] else '.' :: f) ++ e)) =
        (c :: i, (if f = [] then [] else '.' :: f) ++ e) := by
      refine spanDigits_append ?_ ?_
      · intro d hd
        rcases List.mem_cons.1 hd with rfl | hd
        · exact hc
        · exact hi d hd
      · intro d hd
        split at hd
        · exact hh d hd
        · simp at hd; subst hd; decide
    have hzc : (decide (c ≠ '0') || decide (i = [])) = true := by
      by_cases h0 : c = '0'
      · simp [hz h0]
      · simp [h0]
    rw [isJson, hstrip, hspan]
    simp only [hzc, Bool.true_and]
    cases f with
    | nil =>
      have hj := (jsonExponent_iff _).2 he
      rcases he with rfl | ⟨c, sign, ds, rfl | rfl, -, -, -, rfl⟩ <;> exact hj
    | cons d f =>
      simp only [reduceCtorEq, if_false, List.cons_append]
      have := spanDigits_append (l := d :: f) (r := e) hf hh
      rw [List.cons_append] at this
      rw [this]
      exact (jsonExponent_iff _).2 he

theorem parse_of_numeral {s : List Char} {q : Rat} (h : IsNumeral s q) : parseXsdDecimal s = some q := by
  obtain ⟨neg, c, i, f, hc, hi, hf, hz, rfl, hq⟩ := numeral_cases h
  have hspan : spanDigits (c :: i ++ (if f = [] then [] else '.' :: f)) =
      (c :: i, if f = [] then [] else '.' :: f) := by
    refine spanDigits_append ?_ ?_
    · intro d hd
      rcases List.mem_cons.1 hd with rfl | hd
      · exact hc
      · exact hi d hd
    · intro d hd
      split at hd
      · simp at hd
      · simp at hd; subst hd; decide
  have key : ∀ t, stripSign ((if neg then ['-'] else []) ++ c :: t) = (neg, c :: t) := by
    intro t
    cases neg
    · have h1 := isDigit_ne (d := '-') hc (by decide)
      have h2 := isDigit_ne (d := '+') hc (by decide)
      simp only [Bool.false_eq_true, if_false, List.nil_append]
      rw [stripSign.eq_def]
      split
      · simp_all
      · simp_all
      · rfl
    · rfl
  have hfrac : spanFraction (if f = [] then [] else '.' :: f) = (f, []) := by
    cases f with
    | nil => rfl
    | cons d f =>
      have := spanDigits_append (l := d :: f) (r := []) hf (by simp)
      rw [List.append_nil] at this
      exact this
  rw [parseXsdDecimal]
  simp only [List.append_assoc, List.cons_append, key]
  rw [List.cons_append] at hspan
  simp only [hspan, hfrac, hq]
  cases neg <;> simp [Rat.neg_mul]

/-- The decimal parser accepts no exponent. -/
theorem parse_of_exponent {t e : List Char} {q : Rat} (h : IsNumeral t q) (he : IsExponent e) :
    parseXsdDecimal (t ++ e) = none := by
  obtain ⟨neg, c, i, f, hc, hi, hf, hz, rfl, hq⟩ := numeral_cases h
  obtain ⟨hh, hdot⟩ := exponent_head (.inr he)
  have hne : e ≠ [] := by
    obtain ⟨_, _, _, _, _, _, _, rfl⟩ := he
    simp
  have hspan : spanDigits (c :: (i ++ ((if f = [] then [] else '.' :: f) ++ e))) =
      (c :: i, (if f = [] then [] else '.' :: f) ++ e) := by
    rw [← List.cons_append]
    refine spanDigits_append ?_ ?_
    · intro d hd
      rcases List.mem_cons.1 hd with rfl | hd
      · exact hc
      · exact hi d hd
    · intro d hd
      split at hd
      · exact hh d hd
      · simp at hd; subst hd; decide
  have key : ∀ t, stripSign ((if neg then ['-'] else []) ++ c :: t) = (neg, c :: t) := by
    intro t
    cases neg
    · have h1 := isDigit_ne (d := '-') hc (by decide)
      have h2 := isDigit_ne (d := '+') hc (by decide)
      simp only [Bool.false_eq_true, if_false, List.nil_append]
      rw [stripSign.eq_def]
      split
      · simp_all
      · simp_all
      · rfl
    · rfl
  have hfrac : spanFraction ((if f = [] then [] else '.' :: f) ++ e) = (f, e) := by
    cases f with
    | nil =>
      simp only [if_true, List.nil_append]
      rw [spanFraction.eq_def]
      split
      · exact absurd rfl (hdot _)
      · rfl
    | cons d f => exact spanDigits_append (l := d :: f) (r := e) hf hh
  rw [parseXsdDecimal]
  simp only [List.append_assoc, List.cons_append, key, hspan, hfrac, hne, false_and, if_false]


theorem isJson_double_minus (t : List Char) : isJson ('-' :: '-' :: t) = false := by
  simp [isJson, stripMinus, spanDigits]

/-- The result of the conversion to a JSON number. -/
theorem toJson_eq (n : Rat) : toJson n = if -1 < n then decimalRepresentation n else none := by
  rw [toJson]
  cases h : decimalRepresentation n with
  | none => simp
  | some s =>
    by_cases hn : -1 < n
    · simp [hn, isJson_of_numeral (decimalRepresentation_numeral n hn h)]
    · obtain ⟨t, rfl, -⟩ := decimalRepresentation_negative n (not_lt.1 hn) h
      simp [hn, isJson_double_minus]

theorem toJson_isSome (n : Rat) : (∃ s, toJson n = some s) ↔ FiniteDecimal n ∧ -1 < n := by
  rw [toJson_eq]
  by_cases hn : -1 < n
  · simp only [hn, if_true, and_true, decimalRepresentation_isSome]
  · simp [hn]

theorem ofJson_toJson {ε} {n : Rat} {s : List Char} (h : toJson n = some s) : (ofJson s : Out ε Rat) = .ok n := by
  have hn : -1 < n := ((toJson_isSome n).1 ⟨s, h⟩).2
  rw [toJson_eq, if_pos hn] at h
  rw [ofJson, parse_of_numeral (decimalRepresentation_numeral n hn h)]; rfl

end Verif.Number
