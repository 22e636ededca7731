import Verif.DisplayLemmas

/-!
# Property C99: the text of a tree determines the tree
-/

namespace Verif.Props

/-- **C99.** Two trees with the same text are the same tree. -/
theorem C99_text_determines_tree (quote : String → List Char) (hq : Display.Quotes quote) (v w : Value)
    (h : Display.value quote v = Display.value quote w) : v = w :=
  (Display.value_inj hq v w [] [] (by rintro c t ⟨⟩) (by rintro c t ⟨⟩) (by simpa using h)).1

/-- **C99** (literals). The same for literals. -/
theorem C99_literal (quote : String → List Char) (hq : Display.Quotes quote) (a b : Literal)
    (h : Display.literal quote a = Display.literal quote b) : a = b := by
  have := C99_text_determines_tree quote hq (.literal a) (.literal b) (by simpa [Display.value] using h)
  injection this

/-- **C99** (numbers). The same for numbers. -/
theorem C99_number (x y : Rat) (h : Display.number x = Display.number y) : x = y := Display.number_inj h

/-- **C99** (inside another text). A tree followed by a delimiter is found again: neither the text of a tree nor this text followed
by a comma, a colon or a closing bracket begins with the text of another tree so followed. -/
theorem C99_prefix (quote : String → List Char) (hq : Display.Quotes quote) (v w : Value) (c d : Char) (s t : List Char)
    (hc : c ∈ [',', ':', ']', '}']) (hd : d ∈ [',', ':', ']', '}'])
    (h : Display.value quote v ++ c :: s = Display.value quote w ++ d :: t) : v = w ∧ c = d ∧ s = t := by
  have key : ∀ c s, c ∈ [',', ':', ']', '}'] → Display.Ends (c :: s) := by
    intro c s hc x t h
    injection h with h _
    subst h
    revert c
    decide
  obtain ⟨h1, h2⟩ := Display.value_inj hq v w _ _ (key c s hc) (key d t hd) h
  injection h2 with h2 h3
  exact ⟨h1, h2, h3⟩

/-! ## The quotation of JSON strings -/

namespace Quote

/-- The letter that follows the backslash. -/
def short (c : Char) : Option Char :=
  if c = '"' then some '"' else if c = '\\' then some '\\' else if c.toNat = 8 then some 'b' else if c.toNat = 9 then some 't'
  else if c.toNat = 10 then some 'n' else if c.toNat = 12 then some 'f' else if c.toNat = 13 then some 'r' else none

/-- A character of a JSON string. -/
def char (c : Char) : List Char :=
  match short c with
  | some d => ['\\', d]
  | none => if c.toNat < 32 then ['\\', 'u', '0', '0', Nat.digitChar (c.toNat / 16), Nat.digitChar (c.toNat % 16)] else [c]

/-- A JSON string. -/
def json (s : String) : List Char := '"' :: (s.toList.flatMap char ++ ['"'])

/-- The value of a hexadecimal digit. -/
def hex (c : Char) : Nat := if c.isDigit then c.toNat - 48 else c.toNat - 87

/-- The character meant by the letter after the backslash. -/
def long (c : Char) : Char :=
  if c = 'b' then Char.ofNat 8 else if c = 't' then Char.ofNat 9 else if c = 'n' then Char.ofNat 10 else if c = 'f' then Char.ofNat 12
  else if c = 'r' then Char.ofNat 13 else c

/-- Reads a character. -/
def read : List Char → Option (Char × List Char)
  | '\\' :: 'u' :: _ :: _ :: a :: b :: s => some (Char.ofNat (16 * hex a + hex b), s)
  | '\\' :: c :: s => some (long c, s)
  | '"' :: _ => none
  | c :: s => some (c, s)
  | [] => none

theorem read_char (c : Char) (s : List Char) : read (char c ++ s) = some (c, s) := by
  have key : ∀ n < 32, Char.ofNat (16 * hex (Nat.digitChar (n / 16)) + hex (Nat.digitChar (n % 16))) = Char.ofNat n := by decide
  have eqn : ∀ n, c.toNat = n → c = Char.ofNat n := by
    rintro n rfl
    exact (Char.ofNat_toNat c).symm
  unfold char short
  by_cases h1 : c = '"'
  · subst h1; rfl
  by_cases h2 : c = '\\'
  · subst h2; rfl
  by_cases h3 : c.toNat = 8
  · rw [eqn _ h3]; rfl
  by_cases h4 : c.toNat = 9
  · rw [eqn _ h4]; rfl
  by_cases h5 : c.toNat = 10
  · rw [eqn _ h5]; rfl
  by_cases h6 : c.toNat = 12
  · rw [eqn _ h6]; rfl
  by_cases h7 : c.toNat = 13
  · rw [eqn _ h7]; rfl
  simp only [h1, h2, h3, h4, h5, h6, h7, if_false]
  split
  · rename_i h8
    simp only [List.cons_append, List.nil_append, read]
    rw [key _ h8, Char.ofNat_toNat]
  · simp only [List.cons_append, List.nil_append]
    unfold read
    split <;> simp_all

theorem body {a b s t : List Char} (h : a.flatMap char ++ '"' :: s = b.flatMap char ++ '"' :: t) : a = b ∧ s = t := by
  induction a generalizing b with
  | nil =>
    cases b with
    | nil => injection h with _ h; exact ⟨rfl, h⟩
    | cons d b =>
      simp only [List.flatMap_nil, List.nil_append, List.flatMap_cons, List.append_assoc] at h
      have := congrArg read h
      rw [read_char] at this
      exact nomatch this
  | cons c a ih =>
    cases b with
    | nil =>
      simp only [List.flatMap_nil, List.nil_append, List.flatMap_cons, List.append_assoc] at h
      have := congrArg read h
      rw [read_char] at this
      exact nomatch this
    | cons d b =>
      simp only [List.flatMap_cons, List.append_assoc] at h
      have := congrArg read h
      rw [read_char, read_char] at this
      injection this with this
      injection this with h1 h2
      obtain ⟨h3, h4⟩ := ih h2
      exact ⟨by rw [h1, h3], h4⟩

/-- JSON strings can be told apart. -/
theorem quotes : Display.Quotes json where
  start s := ⟨_, rfl⟩
  ends a b s t h := by
    simp only [json, List.cons_append, List.append_assoc, List.nil_append] at h
    injection h with _ h
    obtain ⟨h1, h2⟩ := body h
    exact ⟨String.toList_inj.1 h1, h2⟩

end Quote

namespace Witness

/-- A tree: `{"a":[null,true,1/3,-5],"b\"":x00ff,1:{}}`. -/
def shown : Value :=
  .map [(.literal (.textString "a"), .list [.literal .unit, .literal (.boolean true), .literal (.number (1 / 3)),
      .literal (.number (-5))]),
    (.literal (.textString "b\""), .literal (.byteString [0, 255])), (.literal (.number 1), .map [])]

/-- **C99** (the text). The text of trees looks like JSON, but numbers, bytes and keys that JSON does not have are shown as well. -/
theorem C99_text : Display.value Quote.json shown = "{\"a\":[null,true,1/3,-5],\"b\\\"\":x00ff,1:{}}".toList := by
  decide +kernel

end Witness

-- No other tree has this text.
example (w : Value) (h : Display.value Quote.json w = "{\"a\":[null,true,1/3,-5],\"b\\\"\":x00ff,1:{}}".toList) : w = Witness.shown :=
  C99_text_determines_tree Quote.json Quote.quotes w _ (h.trans Witness.C99_text.symm)

end Verif.Props
