import Verif.Display
import Verif.NumberLemmas

/-!
# The text of trees (helper lemmas for C99)
-/

set_option linter.unusedSimpArgs false

namespace Verif.Display

/-- The characters that follow a tree inside another one. -/
def isDelim (c : Char) : Bool := c == ',' || c == ']' || c == '}' || c == ':'

/-- Nothing follows, or a delimiter. -/
def Ends (s : List Char) : Prop := ∀ c t, s = c :: t → isDelim c = true

theorem split_delim {a b s t : List Char} (ha : ∀ c ∈ a, isDelim c = false) (hb : ∀ c ∈ b, isDelim c = false) (hs : Ends s)
    (ht : Ends t) (h : a ++ s = b ++ t) : a = b ∧ s = t := by
  induction a generalizing b with
  | nil =>
    cases b with
    | nil => exact ⟨rfl, h⟩
    | cons c b =>
      have h1 := hs c (b ++ t) h
      rw [hb c (by simp)] at h1
      exact nomatch h1
  | cons c a ih =>
    cases b with
    | nil =>
      have h1 := ht c (a ++ s) h.symm
      rw [ha c (by simp)] at h1
      exact nomatch h1
    | cons d b =>
      injection h with h1 h2
      obtain ⟨h3, h4⟩ := ih (fun c hc => ha c (by simp [hc])) (fun c hc => hb c (by simp [hc])) h2
      exact ⟨by rw [h1, h3], h4⟩

/-! ## Numbers -/

theorem digit_not_delim {c : Char} (h : c.isDigit = true) : isDelim c = false := by
  by_contra hc
  simp only [Bool.not_eq_false, isDelim, Bool.or_eq_true, beq_iff_eq] at hc
  rcases hc with ((rfl | rfl) | rfl) | rfl <;> exact absurd h (by decide)

theorem intToString_inj {x y : Int} (h : Number.intToString x = Number.intToString y) : x = y := by
  have key : ∀ m n : Nat, Nat.toDigits 10 m = Nat.toDigits 10 n → m = n := by
    intro m n h
    have h1 := Nat.ofDigitChars_toDigits (b := 10) (n := m) (by decide) (by decide)
    have h2 := Nat.ofDigitChars_toDigits (b := 10) (n := n) (by decide) (by decide)
    rw [h] at h1
    exact h1.symm.trans h2
  have minus : ∀ (m : Nat) (l : List Char), Nat.toDigits 10 m ≠ '-' :: l := by
    intro m l h
    have := Number.isDigit_toDigits (n := m) '-' (by rw [h]; simp)
    exact absurd this (by decide)
  unfold Number.intToString at h
  split at h <;> split at h
  · injection h with _ h
    have := key _ _ h
    omega
  · exact absurd h.symm (minus _ _)
  · exact absurd h (minus _ _)
  · have := key _ _ h
    omega

theorem intToString_chars {x : Int} : ∀ c ∈ Number.intToString x, c.isDigit = true ∨ c = '-' := by
  intro c hc
  unfold Number.intToString at hc
  split at hc
  · rcases List.mem_cons.1 hc with h | h
    · exact .inr h
    · exact .inl (Number.isDigit_toDigits c h)
  · exact .inl (Number.isDigit_toDigits c hc)

theorem number_chars {x : Rat} : ∀ c ∈ number x, c.isDigit = true ∨ c = '-' ∨ c = '/' := by
  intro c hc
  unfold number at hc
  split at hc
  · exact (intToString_chars c hc).imp id .inl
  · rcases List.mem_append.1 hc with h | h
    · exact (intToString_chars c h).imp id .inl
    · rcases List.mem_cons.1 h with h | h
      · exact .inr (.inr h)
      · exact .inl (Number.isDigit_toDigits c h)

theorem split_slash {a b s t : List Char} (ha : '/' ∉ a) (hb : '/' ∉ b) (h : a ++ '/' :: s = b ++ '/' :: t) : a = b ∧ s = t := by
  induction a generalizing b with
  | nil =>
    cases b with
    | nil => injection h with _ h; exact ⟨rfl, h⟩
    | cons c b => injection h with h _; exact absurd (by simp [← h]) hb
  | cons c a ih =>
    cases b with
    | nil => injection h with h _; exact absurd (by simp [h]) ha
    | cons d b =>
      injection h with h1 h2
      obtain ⟨h3, h4⟩ := ih (fun hc => ha (by simp [hc])) (fun hc => hb (by simp [hc])) h2
      exact ⟨by rw [h1, h3], h4⟩

theorem slash_intToString (x : Int) : '/' ∉ Number.intToString x := fun h =>
  (intToString_chars _ h).elim (fun h => absurd h (by decide)) (fun h => absurd h (by decide))

theorem number_inj {x y : Rat} (h : number x = number y) : x = y := by
  unfold number at h
  split at h <;> split at h
  · rename_i h1 h2
    exact Rat.ext (intToString_inj h) (h1.trans h2.symm)
  · exact absurd (by rw [h]; simp) (slash_intToString x.num)
  · exact absurd (by rw [← h]; simp) (slash_intToString y.num)
  · obtain ⟨h1, h2⟩ := split_slash (slash_intToString _) (slash_intToString _) h
    have h3 := Nat.ofDigitChars_toDigits (b := 10) (n := x.den) (by decide) (by decide)
    have h4 := Nat.ofDigitChars_toDigits (b := 10) (n := y.den) (by decide) (by decide)
    rw [h2] at h3
    exact Rat.ext (intToString_inj h1) (h3.symm.trans h4)

/-! ## Bytes -/

theorem digitChar_inj : ∀ a < 16, ∀ b < 16, Nat.digitChar a = Nat.digitChar b → a = b := by decide

theorem digitChar_not_delim : ∀ a < 16, isDelim (Nat.digitChar a) = false := by decide

theorem byte_inj {x y : UInt8} (h : byte x = byte y) : x = y := by
  have hx := x.toNat_lt
  have hy := y.toNat_lt
  injection h with h1 h2
  injection h2 with h2 _
  have h1 := digitChar_inj _ (by omega) _ (by omega) h1
  have h2 := digitChar_inj _ (by omega) _ (by omega) h2
  exact UInt8.toNat_inj.1 (by omega)

theorem bytes_inj {a b : List UInt8} (h : a.flatMap byte = b.flatMap byte) : a = b := by
  induction a generalizing b with
  | nil =>
    cases b with
    | nil => rfl
    | cons y b => simp [byte] at h
  | cons x a ih =>
    cases b with
    | nil => simp [byte] at h
    | cons y b =>
      simp only [List.flatMap_cons] at h
      obtain ⟨h1, h2⟩ := List.append_inj h rfl
      rw [byte_inj h1, ih h2]

theorem bytes_chars {a : List UInt8} : ∀ c ∈ a.flatMap byte, isDelim c = false := by
  intro c hc
  obtain ⟨x, _, hc⟩ := List.mem_flatMap.1 hc
  have := x.toNat_lt
  simp only [byte, List.mem_cons, List.not_mem_nil, or_false] at hc
  rcases hc with rfl | rfl
  · exact digitChar_not_delim _ (by omega)
  · exact digitChar_not_delim _ (by omega)

/-! ## Trees -/

/-- The kind of tree the first character announces. -/
def announced (c : Char) : Nat :=
  if c = 'n' then 0 else if c = 't' then 1 else if c = 'f' then 2 else if c = 'x' then 4 else if c = '"' then 5
  else if c = '[' then 6 else if c = '{' then 7 else if c.isDigit || c == '-' then 3 else 8

/-- The kind of a tree. -/
def kind : Value → Nat
  | .literal .unit => 0
  | .literal (.boolean true) => 1
  | .literal (.boolean false) => 2
  | .literal (.number _) => 3
  | .literal (.byteString _) => 4
  | .literal (.textString _) => 5
  | .list _ => 6
  | .map _ => 7

theorem announced_number {c : Char} (h : c.isDigit = true ∨ c = '-') : announced c = 3 := by
  rcases h with h | rfl
  · have : ∀ d : Char, d.isDigit = false → c ≠ d := by
      rintro d hd rfl
      rw [h] at hd
      exact nomatch hd
    simp [announced, this 'n' (by decide), this 't' (by decide), this 'f' (by decide), this 'x' (by decide), this '"' (by decide),
      this '[' (by decide), this '{' (by decide), h]
  · decide

theorem intToString_ne (x : Int) : Number.intToString x ≠ [] := by
  unfold Number.intToString
  split
  · simp
  · exact Nat.toDigits_ne_nil

variable {quote : String → List Char}

section

variable (Q : Quotes quote)
include Q

theorem first (v : Value) : ∃ c t, value quote v = c :: t ∧ announced c = kind v := by
  match v with
  | .literal .unit => exact ⟨_, _, rfl, by decide⟩
  | .literal (.boolean true) => exact ⟨_, _, rfl, by decide⟩
  | .literal (.boolean false) => exact ⟨_, _, rfl, by decide⟩
  | .literal (.number n) =>
    obtain ⟨c, t, h⟩ := List.exists_cons_of_ne_nil (intToString_ne n.num)
    have hc := announced_number (intToString_chars (x := n.num) c (by rw [h]; simp))
    simp only [value, literal, number, h]
    split
    · exact ⟨c, t, rfl, hc⟩
    · exact ⟨c, _, rfl, hc⟩
  | .literal (.byteString _) => exact ⟨_, _, rfl, (by decide : announced 'x' = 4)⟩
  | .literal (.textString s) =>
    obtain ⟨t, h⟩ := Q.start s
    exact ⟨_, t, h, (by decide : announced '"' = 5)⟩
  | .list _ => exact ⟨_, _, by rw [value], (by decide : announced '[' = 6)⟩
  | .map _ => exact ⟨_, _, by rw [value], (by decide : announced '{' = 7)⟩

theorem kind_eq {v w : Value} {s t : List Char} (h : value quote v ++ s = value quote w ++ t) : kind v = kind w := by
  obtain ⟨c, v', hv, hk⟩ := first Q v
  obtain ⟨d, w', hw, hk'⟩ := first Q w
  rw [hv, hw] at h
  injection h with h _
  rw [← hk, ← hk', h]

theorem not_close {v : Value} {s t : List Char} {c : Char} (hc : announced c = 8) : value quote v ++ s ≠ c :: t := by
  obtain ⟨d, v', hv, hk⟩ := first Q v
  rw [hv]
  intro h
  injection h with h _
  subst h
  have : kind v < 8 := by
    match v with
    | .literal .unit => decide
    | .literal (.boolean true) => decide
    | .literal (.boolean false) => decide
    | .literal (.number _) => simp [kind]
    | .literal (.byteString _) => simp [kind]
    | .literal (.textString _) => simp [kind]
    | .list _ => simp [kind]
    | .map _ => simp [kind]
  omega

omit Q in
theorem ends_items (i : Nat) (l : List Value) (s : List Char) : Ends (items quote (i + 1) l ++ ']' :: s) := by
  intro c t h
  cases l with
  | nil => injection h with h _; subst h; decide
  | cons v l =>
    simp only [items, comma, Nat.zero_lt_succ, gt_iff_lt, if_true, List.cons_append, List.nil_append] at h
    injection h with h _
    subst h
    decide

omit Q in
theorem ends_entries (i : Nat) (l : List (Value × Value)) (s : List Char) : Ends (entries quote (i + 1) l ++ '}' :: s) := by
  intro c t h
  cases l with
  | nil => injection h with h _; subst h; decide
  | cons e l =>
    obtain ⟨k, v⟩ := e
    simp only [entries, comma, Nat.zero_lt_succ, gt_iff_lt, if_true, List.cons_append, List.nil_append] at h
    injection h with h _
    subst h
    decide

omit Q in
theorem ends_colon (s : List Char) : Ends (':' :: s) := by
  intro c t h
  injection h with h _
  subst h
  decide

theorem literal_inj {a b : Literal} {s t : List Char} (hs : Ends s) (ht : Ends t)
    (h : literal quote a ++ s = literal quote b ++ t) : a = b ∧ s = t := by
  have hk := kind_eq Q (v := .literal a) (w := .literal b) (s := s) (t := t) (by simpa [value] using h)
  have hnum : ∀ n : Rat, ∀ c ∈ number n, isDelim c = false := by
    intro n c hc
    rcases number_chars c hc with h | rfl | rfl
    · exact digit_not_delim h
    · decide
    · decide
  match a, b, hk, h with
  | .unit, .unit, _, h => exact ⟨rfl, (List.append_right_inj _).1 h⟩
  | .boolean true, .boolean true, _, h => exact ⟨rfl, (List.append_right_inj _).1 h⟩
  | .boolean false, .boolean false, _, h => exact ⟨rfl, (List.append_right_inj _).1 h⟩
  | .number x, .number y, _, h =>
    obtain ⟨h1, h2⟩ := split_delim (hnum x) (hnum y) hs ht h
    exact ⟨by rw [number_inj h1], h2⟩
  | .byteString x, .byteString y, _, h =>
    injection h with _ h
    obtain ⟨h1, h2⟩ := split_delim bytes_chars bytes_chars hs ht h
    exact ⟨by rw [bytes_inj h1], h2⟩
  | .textString x, .textString y, _, h =>
    obtain ⟨h1, h2⟩ := Q.ends x y s t h
    exact ⟨by rw [h1], h2⟩

omit Q in
theorem comma_cancel {i : Nat} {s t : List Char} (h : comma i ++ s = comma i ++ t) : s = t := (List.append_right_inj _).1 h

end

mutual

theorem value_inj (Q : Quotes quote) : ∀ (v w : Value) (s t : List Char), Ends s → Ends t →
    value quote v ++ s = value quote w ++ t → v = w ∧ s = t
  | .literal a, .literal b, s, t, hs, ht, h => by
    simp only [value] at h
    obtain ⟨h1, h2⟩ := literal_inj Q hs ht h
    exact ⟨by rw [h1], h2⟩
  | .list l, .list l', s, t, _, _, h => by
    simp only [value, List.cons_append, List.append_assoc, List.nil_append] at h
    injection h with _ h
    obtain ⟨h1, h2⟩ := items_inj Q l l' 0 s t h
    exact ⟨by rw [h1], h2⟩
  | .map m, .map m', s, t, _, _, h => by
    simp only [value, List.cons_append, List.append_assoc, List.nil_append] at h
    injection h with _ h
    obtain ⟨h1, h2⟩ := entries_inj Q m m' 0 s t h
    exact ⟨by rw [h1], h2⟩
  | .literal a, .list l, s, t, _, _, h => by
    have := kind_eq Q h
    cases a with
    | boolean b => cases b <;> simp [kind] at this
    | _ => simp [kind] at this
  | .literal a, .map l, s, t, _, _, h => by
    have := kind_eq Q h
    cases a with
    | boolean b => cases b <;> simp [kind] at this
    | _ => simp [kind] at this
  | .list l, .literal a, s, t, _, _, h => by
    have := kind_eq Q h
    cases a with
    | boolean b => cases b <;> simp [kind] at this
    | _ => simp [kind] at this
  | .map l, .literal a, s, t, _, _, h => by
    have := kind_eq Q h
    cases a with
    | boolean b => cases b <;> simp [kind] at this
    | _ => simp [kind] at this
  | .list l, .map m, s, t, _, _, h => by have := kind_eq Q h; simp [kind] at this
  | .map m, .list l, s, t, _, _, h => by have := kind_eq Q h; simp [kind] at this

theorem items_inj (Q : Quotes quote) : ∀ (l l' : List Value) (i : Nat) (s t : List Char),
    items quote i l ++ ']' :: s = items quote i l' ++ ']' :: t → l = l' ∧ s = t
  | [], [], _, s, t, h => by simpa [items] using h
  | [], w :: l', i, s, t, h => by
    simp only [items, List.nil_append, comma] at h
    split at h
    · injection h with h _; exact absurd h (by decide)
    · simp only [List.nil_append, List.append_assoc] at h
      exact absurd h.symm (not_close Q (by decide))
  | v :: l, [], i, s, t, h => by
    simp only [items, List.nil_append, comma] at h
    split at h
    · injection h with h _; exact absurd h (by decide)
    · simp only [List.nil_append, List.append_assoc] at h
      exact absurd h (not_close Q (by decide))
  | v :: l, w :: l', i, s, t, h => by
    simp only [items, List.append_assoc] at h
    obtain ⟨h1, h2⟩ := value_inj Q v w _ _ (ends_items i l s) (ends_items i l' t) (comma_cancel h)
    obtain ⟨h3, h4⟩ := items_inj Q l l' (i + 1) s t h2
    exact ⟨by rw [h1, h3], h4⟩

theorem entries_inj (Q : Quotes quote) : ∀ (l l' : List (Value × Value)) (i : Nat) (s t : List Char),
    entries quote i l ++ '}' :: s = entries quote i l' ++ '}' :: t → l = l' ∧ s = t
  | [], [], _, s, t, h => by simpa [entries] using h
  | [], (k, w) :: l', i, s, t, h => by
    simp only [entries, List.nil_append, comma] at h
    split at h
    · injection h with h _; exact absurd h (by decide)
    · simp only [List.nil_append, List.append_assoc] at h
      exact absurd h.symm (not_close Q (by decide))
  | (k, v) :: l, [], i, s, t, h => by
    simp only [entries, List.nil_append, comma] at h
    split at h
    · injection h with h _; exact absurd h (by decide)
    · simp only [List.nil_append, List.append_assoc] at h
      exact absurd h (not_close Q (by decide))
  | (k, v) :: l, (k', w) :: l', i, s, t, h => by
    simp only [entries, List.append_assoc, List.cons_append] at h
    obtain ⟨h1, h2⟩ := value_inj Q k k' _ _ (ends_colon _) (ends_colon _) (comma_cancel h)
    injection h2 with _ h2
    obtain ⟨h3, h4⟩ := value_inj Q v w _ _ (ends_entries i l s) (ends_entries i l' t) h2
    obtain ⟨h5, h6⟩ := entries_inj Q l l' (i + 1) s t h4
    exact ⟨by rw [h1, h3, h5], h6⟩

end

end Verif.Display
