import Verif.RegExp

/-! # The language of a regular expression -/

namespace Verif

namespace RegExp

/-- `w` is the concatenation of `n` strings of a language. -/
def Times (P : List Nat → Prop) : Nat → List Nat → Prop
  | 0, w => w = []
  | n + 1, w => ∃ u v, w = u ++ v ∧ P u ∧ Times P n v

/-- The string `w` is matched by the expression. The bound `u32::MAX` means that there is no bound. -/
def Matches : RegExp → List Nat → Prop
  | .any, w => ∃ c, c ≤ lastChar ∧ w = [c]
  | .set s, w => ∃ c, s.Mem c ∧ w = [c]
  | .seq es, w => MatchesSeq es w
  | .rep e min max, w => ∃ n, min ≤ n ∧ (n ≤ max ∨ max = u32Max) ∧ Times e.Matches n w
  | .union es, w => MatchesOne es w
where
  /-- `w` is the concatenation of strings matched by the expressions. -/
  MatchesSeq : List RegExp → List Nat → Prop
    | [], w => w = []
    | e :: es, w => ∃ u v, w = u ++ v ∧ e.Matches u ∧ MatchesSeq es v
  /-- `w` is matched by one of the expressions. -/
  MatchesOne : List RegExp → List Nat → Prop
    | [], _ => False
    | e :: es, w => e.Matches w ∨ MatchesOne es w

/-- What the Rust types guarantee: sets of characters are range sets, bounds are at most `u32::MAX`. -/
def WF : RegExp → Prop
  | .any => True
  | .set s => s.WF ∧ s.Valid
  | .seq es => WFs es
  | .rep e min max => e.WF ∧ min ≤ u32Max ∧ max ≤ u32Max
  | .union es => WFs es
where
  /-- All the expressions are well formed. -/
  WFs : List RegExp → Prop
    | [] => True
    | e :: es => e.WF ∧ WFs es

/-! ## Bracket expressions -/

/-- The escape sequences: the character after the backslash, and the character denoted. -/
def escapes : List (Nat × Nat) :=
  [('0'.toNat, 0), ('a'.toNat, 7), ('b'.toNat, 8), ('t'.toNat, 9), ('n'.toNat, 10), ('v'.toNat, 11), ('f'.toNat, 12),
    ('r'.toNat, 13), ('e'.toNat, 27)]

/-- The backslash followed by `x` denotes `c`. -/
def Escape (x c : Nat) : Prop := (x, c) ∈ escapes ∨ x ∉ escapes.map Prod.fst ∧ c = x

/-- A text denotes a character of a bracket expression: itself, or an escape sequence. -/
inductive Written : List Nat → Nat → Prop
  | plain {c : Nat} : c ≠ '\\'.toNat → c ≠ ']'.toNat → Written [c] c
  | escape {x c : Nat} : Escape x c → Written ['\\'.toNat, x] c

/-- A text denotes the end of a range. It can be the closing bracket. -/
inductive WrittenEnd : List Nat → Nat → Prop
  | plain {c : Nat} : c ≠ '\\'.toNat → WrittenEnd [c] c
  | escape {x c : Nat} : Escape x c → WrittenEnd ['\\'.toNat, x] c

/-- The body of a bracket expression, with the ranges that it lists: a character `a` lists `a-a`. After a character, a dash
is that of a range; elsewhere it is a character. The Boolean tells whether the preceding item is a character. -/
inductive ClassBody : Bool → List Nat → List CharRange → Prop
  | nil (after : Bool) : ClassBody after [] []
  | char {after : Bool} {t rest : List Nat} {c : Nat} {items : List CharRange} : Written t c →
      (after = true → t ≠ ['-'.toNat]) → ClassBody true rest items → ClassBody after (t ++ rest) (⟨c, c⟩ :: items)
  | range {after : Bool} {t t' rest : List Nat} {c c' : Nat} {items : List CharRange} : Written t c →
      (after = true → t ≠ ['-'.toNat]) → WrittenEnd t' c' → ClassBody false rest items →
      ClassBody after (t ++ '-'.toNat :: (t' ++ rest)) (⟨c, c'⟩ :: items)

/-- `text` is a bracket expression (without the opening bracket) followed by `rest`. -/
inductive Class : (negated : Bool) → List CharRange → (text rest : List Nat) → Prop
  | positive {body rest : List Nat} {items : List CharRange} : ClassBody false body items → body.head? ≠ some '^'.toNat →
      Class false items (body ++ ']'.toNat :: rest) rest
  | negative {body rest : List Nat} {items : List CharRange} : ClassBody false body items →
      Class true items ('^'.toNat :: (body ++ ']'.toNat :: rest)) rest

/-- The character `c` is one of those that a bracket expression denotes. -/
def Denotes (negated : Bool) (items : List CharRange) (c : Nat) : Prop :=
  c ≤ lastChar ∧ if negated then ∀ r ∈ items, ¬ r.Mem c else ∃ r ∈ items, r.Mem c

end RegExp

end Verif
