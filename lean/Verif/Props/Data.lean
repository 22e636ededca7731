import Verif.CborLemmas

/-!
# Properties of numbers, JSON, Serde and CBOR (C34, C35, C39, C48, C49, C50)

Numerals are specified in `Verif/NumberSpec.lean`; compatible trees and the meaning of CBOR integers in
`Verif/JsonSpec.lean`.
-/

set_option linter.unusedSectionVars false
set_option linter.unusedSimpArgs false

namespace Verif.Props

/-! ## C34 -/

/-- **C34**, termination. The division loop stops after at most as many steps as the denominator, and running it longer
does not change the result. -/
theorem C34_terminates (n : Rat) (fuel : Nat) (h : n.den ≤ fuel) :
    Number.decimal fuel n = .ok (Number.decimalRepresentation n) := by
  have key : ∀ f, n.den ≤ f → Number.decimal f n ≠ .fuel ∧ (∀ e, Number.decimal f n ≠ .err e) ∧
      Number.decimal f n ≠ .panic := by
    intro f hf
    obtain ⟨k, g, _, _, _, hh | hh⟩ := Number.decimal_spec n f hf <;> rw [hh.2] <;> simp
  have step : ∀ d f r s g x, Number.fractionLoop d f r s g = .ok x → Number.fractionLoop d (f + 1) r s g = .ok x := by
    intro d f
    induction f with
    | zero =>
      intro r s g x hx
      rw [Number.loop_eq] at hx ⊢
      split at hx
      · rw [if_pos ‹_›]; exact hx
      · cases hx
    | succ f ih =>
      intro r s g x hx
      rw [Number.loop_eq] at hx ⊢
      split at hx
      · rw [if_pos ‹_›]; exact hx
      · rw [if_neg ‹_›]; exact ih _ _ _ _ hx
  have mono : ∀ j x, Number.decimal n.den n = .ok x → Number.decimal (n.den + j) n = .ok x := by
    intro j
    induction j with
    | zero => intro x hx; exact hx
    | succ j ih =>
      intro x hx
      have := ih x hx
      rw [Number.decimal, Out.bind_eq_ok] at this ⊢
      obtain ⟨a, h1, h2⟩ := this
      exact ⟨a, step _ _ _ _ _ _ h1, h2⟩
  obtain ⟨j, rfl⟩ := Nat.exists_eq_add_of_le h
  cases hd : Number.decimal n.den n with
  | ok x => rw [mono j x hd, Number.decimalRepresentation_eq hd]
  | err e => exact absurd hd ((key _ (Nat.le_refl _)).2.1 e)
  | panic => exact absurd hd (key _ (Nat.le_refl _)).2.2
  | fuel => exact absurd hd (key _ (Nat.le_refl _)).1

/-- **C34**, domain. A representation is returned exactly for the numbers that have a finite decimal expansion. -/
theorem C34_domain (n : Rat) : (∃ s, Number.decimalRepresentation n = some s) ↔ FiniteDecimal n :=
  Number.decimalRepresentation_isSome n

/-- **C34**, value (partial). The string returned is a decimal numeral of the number, provided that the number is greater
than `-1`. Without this condition the statement is false: `C34_negative_counterexample`. -/
theorem C34_value_partial (n : Rat) (hn : -1 < n) (s : List Char) (h : Number.decimalRepresentation n = some s) :
    IsNumeral s n :=
  Number.decimalRepresentation_numeral n hn h

/-- **C34** fails from `-1` down: the sign is printed twice. The result is the numeral of no number, although it would be one
of this number without the first sign. -/
theorem C34_negative_counterexample (n : Rat) (hn : n ≤ -1) (s : List Char)
    (h : Number.decimalRepresentation n = some s) : (∃ t, s = '-' :: '-' :: t ∧ IsNumeral ('-' :: t) n) ∧ ∀ q, ¬IsNumeral s q := by
  obtain ⟨t, rfl, ht⟩ := Number.decimalRepresentation_negative n hn h
  exact ⟨⟨t, rfl, ht⟩, fun _ => Number.not_numeral_double_minus⟩

example : Number.decimalRepresentation (1 / 8) = some "0.125".toList := by decide +kernel
example : Number.decimalRepresentation (2 / 3) = none := by decide +kernel
example : Number.decimalRepresentation (-1 / 4) = some "-0.25".toList := by decide +kernel
example : Number.decimalRepresentation (-3 / 2) = some "--1.5".toList := by decide +kernel
example : Number.decimal 2 (1 / 7) = .fuel := by decide +kernel

/-! ## C35 -/

/-- **C35**, round trip. A tree converted to JSON and back is the same tree. -/
theorem C35_roundtrip (v : Value) (hv : v.WF) (j : Json) (h : v.toJson = .ok j) : j.toValue = .ok v :=
  json_roundtrip v j hv h

/-- The other way round: a tree read from a JSON document is well formed, hence what is read from its own JSON form. -/
theorem C35_reread (j j' : Json) (v : Value) (h : j.toValue = .ok v) (h' : v.toJson = .ok j') : j'.toValue = .ok v :=
  json_roundtrip v j' (toValue_wf j v h) h'

/-- **C35**, domain (partial). The conversion to JSON succeeds exactly on the trees without byte strings, with text keys
only, all whose numbers have a finite decimal expansion and are greater than `-1`. The property does not have the last
condition: `C35_negative_counterexample`. -/
theorem C35_domain_partial (v : Value) :
    (∃ j, v.toJson = .ok j) ↔ v.JsonCompatible fun n => FiniteDecimal n ∧ -1 < n :=
  toJson_ok_iff v

/-- **C35** fails for numbers from `-1` down, which are rejected. -/
theorem C35_negative_counterexample (n : Rat) (hn : n ≤ -1) :
    (Value.literal (.number n)).toJson = .err (.number n) := by
  have : Number.toJson n = none := by rw [Number.toJson_eq, if_neg (not_lt.2 hn)]
  simp [Value.toJson, Literal.toJson, this]

/-- Converting a literal with its type to JSON is converting the value it stands for: the identifiers are texts, and a unit is its
constant. -/
theorem C35_typed_literal {R : Type} (l : TypedLiteral R) : l.toJson = l.untype.toJson := by
  cases l <;> simp [TypedLiteral.toJson, TypedLiteral.untype, Value.toJson, Literal.toJson]

example : (TypedLiteral.unit (.list [.literal (.textString "ex:a")]) "l").toJson = .ok (.array [.string "ex:a"]) := by
  simp [TypedLiteral.toJson, Value.toJson, Value.itemsToJson, Literal.toJson]

/-- JSON numbers with an exponent are valid JSON, but make the conversion panic. -/
theorem C35_exponent_panics : Number.isJson "1e3".toList = true ∧ (Json.number "1e3".toList).toValue = .panic := by
  decide +kernel

/-- The strings taken for JSON numbers are those of the JSON grammar. -/
theorem C35_json_numbers (s : List Char) : Number.isJson s = true ↔ IsJsonNumber s := Number.isJson_iff s

example : IsJsonNumber "-10.50E+07".toList :=
  ⟨_, "-10.50".toList, "E+07".toList, ⟨true, ['1', '0'], ['5', '0'], by decide, by decide, by decide, by decide, rfl⟩,
    .inr ⟨'E', ['+'], ['0', '7'], by decide, by decide, by decide, by decide, by decide⟩, by decide⟩

/-- **C35**, reading. A JSON document is read as a tree exactly when no number in it has an exponent. Otherwise the
conversion panics. -/
theorem C35_reads_partial (j : Json) (hj : ∀ s, j.Mentions s → IsJsonNumber s) :
    ((∃ v, j.toValue = .ok v) ↔ ∀ s, j.Mentions s → ∃ q, IsNumeral s q) ∧
    (j.toValue = .panic ↔ ∃ t e q, j.Mentions (t ++ e) ∧ IsNumeral t q ∧ IsExponent e) := by
  have hex : (¬ ∀ s, j.Mentions s → ∃ q, IsNumeral s q) ↔ ∃ t e q, j.Mentions (t ++ e) ∧ IsNumeral t q ∧ IsExponent e := by
    constructor
    · intro h
      simp only [not_forall] at h
      obtain ⟨s, hs, hn⟩ := h
      obtain ⟨q, t, e, ht, he | he, rfl⟩ := hj s hs
      · subst he
        rw [List.append_nil] at hn
        exact absurd ⟨q, ht⟩ hn
      · exact ⟨t, e, q, hs, ht, he⟩
    · rintro ⟨t, e, q, hm, ht, he⟩ h
      obtain ⟨q', h'⟩ := h _ hm
      have := Number.parse_of_exponent ht he
      rw [Number.parse_of_numeral h'] at this
      cases this
  rw [← hex]
  rcases toValue_total j hj with ⟨h1, v, h2⟩ | ⟨h1, h2⟩
  · exact ⟨iff_of_true ⟨v, h2⟩ h1, iff_of_false (by rw [h2]; simp) (by simpa using h1)⟩
  · exact ⟨iff_of_false (by rw [h2]; simp) h1, iff_of_true h2 h1⟩

example : ∀ s, (Json.array [.number "2.5".toList, .number "1e3".toList]).Mentions s → IsJsonNumber s := by
  intro s h
  cases h with
  | array hj h =>
    simp only [List.mem_cons, List.not_mem_nil, or_false] at hj
    rcases hj with rfl | rfl <;> cases h <;> exact (C35_json_numbers _).1 (by decide +kernel)

/-- A tree with a map, a list, and every kind of literal that JSON has. -/
def jsonTree : Value :=
  .map [(.text "a", .list [.literal (.number (5 / 4)), .literal (.boolean true)]), (.text "b", .literal .unit)]

theorem jsonTree_wf : jsonTree.WF := by
  refine .map _ ?_ ?_ ?_
  · simp only [StrictlyIncreasing, List.pairwise_cons]; decide +kernel
  · intro e he; simp at he; rcases he with rfl | rfl <;> exact .literal _
  · intro e he
    simp at he
    rcases he with rfl | rfl
    · refine .list _ ?_
      intro v hv; simp at hv; rcases hv with rfl | rfl <;> exact .literal _
    · exact .literal _

example : jsonTree.WF ∧ ∃ j, jsonTree.toJson = .ok j := by
  refine ⟨jsonTree_wf, (C35_domain_partial _).2 ?_⟩
  refine .map _ ?_ ?_
  · intro e he; simp at he; rcases he with rfl | rfl <;> exact ⟨_, rfl⟩
  · intro e he
    simp at he
    rcases he with rfl | rfl
    · refine .list _ ?_
      intro v hv
      simp at hv
      rcases hv with rfl | rfl
      · exact .number _ ⟨⟨125, 2, by decide +kernel⟩, by decide +kernel⟩
      · exact .boolean _
    · exact .unit

example : (Value.list [.literal (.byteString [1])]).toJson = .err (.byteString [1]) := by
  simp [Value.toJson, Value.itemsToJson, Literal.toJson]

/-! ## C39 -/

variable {F : Type} (toF64 : Rat → F)

/-- **C39** (partial). The encoding of an integer denotes this integer according to RFC 8949, for positive integers of any
size and for negative integers greater than `-2^64`. The property ranges over all integers: it fails for the others. -/
theorem C39_integer_partial (z : Int) (h0 : z ≠ 0) (h : -2 ^ 64 < z) :
    ∃ c, Number.toCbor toF64 z = .ok c ∧ c.DenotesInt z := by
  by_cases hb : z.natAbs < 2 ^ 64
  · exact ⟨_, toCbor_small z h0 hb, .integer z (by omega) (by omega)⟩
  · have := toCbor_big (toF64 := toF64) z (by omega)
    exact ⟨_, this, big_positive z (by omega) _ this⟩

/-- **C39** fails for zero, which makes the conversion panic. -/
theorem C39_zero_panics : Number.toCbor toF64 (0 : Int) = .panic := by
  exact toCbor_zero

/-- **C39** fails for every integer from `-2^64` down: the bytes are those of the two's complement instead of `-1 - n`. -/
theorem C39_bignum_counterexample (z : Int) (h : z ≤ -2 ^ 64) :
    ∃ c, Number.toCbor toF64 z = .ok c ∧ ¬c.DenotesInt z := by
  have := toCbor_big (toF64 := toF64) z (by omega)
  exact ⟨_, this, big_negative z h _ this⟩

example : Number.toCbor (fun q => q) (2 ^ 64) = .ok (.tag 2 (.bytes [1, 0, 0, 0, 0, 0, 0, 0, 0])) := by rfl

example : toSignedBytesBe (-2 ^ 64) = [255, 0, 0, 0, 0, 0, 0, 0, 0] ∧
    beNat [255, 0, 0, 0, 0, 0, 0, 0, 0] = 255 * 2 ^ 64 := by decide +kernel

/-! ## C48 -/

variable (collect : List (Cbor F × Cbor F) → List (Cbor F × Cbor F)) {R : Type}

/-- **C48** (partial). The CBOR encoding of a typed tree is the CBOR encoding of the tree without its types, provided that
no unit layout has a constant other than unit. The property has no such condition: `C48_constant_counterexample`. -/
theorem C48_typed_partial (v : TypedValue R) (h : v.NoConstant) :
    v.toCbor toF64 collect = v.untype.toCbor toF64 collect :=
  typed_toCbor v h

/-- **C48** fails for unit layouts with a constant, which is encoded as `null` (as opposed to JSON). -/
theorem C48_constant_counterexample (ty : R) :
    (TypedValue.literal (.unit (.text "a") ty)).toCbor toF64 collect = .ok .null ∧
    (TypedValue.literal (.unit (.text "a") ty)).untype.toCbor toF64 collect = .ok (.text "a") := by
  simp [TypedValue.toCbor, TypedLiteral.toCbor, TypedValue.untype, TypedLiteral.untype, Value.text, Value.toCbor]

example : (TypedValue.variant (.list [.literal (.unit (.literal .unit) 1), .literal (.number 3 2)] 3) 4 0).NoConstant := by
  refine .variant _ _ _ (.list _ _ ?_)
  intro v hv
  simp at hv
  rcases hv with rfl | rfl
  · exact .unit _
  · exact .number _ _

/-! ## C49 -/

variable {ε : Type} (tagOf : R → Out ε (Option Nat))

/-- **C49**, wrapping. The tagged encoding of a value is wrapped in the tag of its layout. -/
theorem C49_wrapped (v : TypedValue R) (ty : R) (hty : v.type = some ty) (t : Nat) (ht : tagOf ty = .ok (some t))
    (c : Cbor F) (h : v.toTaggedCbor toF64 collect tagOf = .ok c) : ∃ w, c = .tag t w := by
  obtain ⟨w, hw⟩ := tagged_last v c h
  rw [hty] at hw
  rcases addTag_spec hw with ⟨_, h1⟩ | ⟨r, t', h1, h2, h3⟩
  · have := h1 ty rfl; rw [ht] at this; simp at this
  · cases h1
    rw [ht] at h2
    simp only [Out.ok.injEq, Option.some.injEq] at h2
    exact ⟨w, by rw [h3, h2]⟩

/-- **C49**, content. The tagged encoding is the plain encoding with tags added around values. -/
theorem C49_content (hc : KeyBased collect) (v : TypedValue R) (c : Cbor F)
    (h : v.toTaggedCbor toF64 collect tagOf = .ok c) :
    ∃ c', v.toCbor toF64 collect = .ok c' ∧ c'.AddTags c :=
  tagged_addTags hc v c h

/-- **C49**, no tags. If no layout has a tag, the tagged encoding is the plain encoding. -/
theorem C49_untagged (hn : ∀ r, tagOf r = .ok none) (v : TypedValue R) (c : Cbor F) :
    v.toTaggedCbor toF64 collect tagOf = .ok c ↔ v.toCbor toF64 collect = .ok c := by
  rw [tagged_eq hn]
  exact ⟨lift_eq_ok, fun h => by rw [h]; rfl⟩

theorem isUnsignedLong_iff (ty : String) : isUnsignedLong ty = true ↔
    ty = "http://www.w3.org/2001/XMLSchema#unsignedLong" ∨ ty = "http://www.w3.org/2001/XMLSchema#unsignedInt" ∨
    ty = "http://www.w3.org/2001/XMLSchema#unsignedShort" ∨ ty = "http://www.w3.org/2001/XMLSchema#unsignedByte" := by
  have h1 : "http://www.w3.org/2001/XMLSchema#" ++ "unsignedLong" = "http://www.w3.org/2001/XMLSchema#unsignedLong" := by
    decide +kernel
  have h2 : "http://www.w3.org/2001/XMLSchema#" ++ "unsignedInt" = "http://www.w3.org/2001/XMLSchema#unsignedInt" := by
    decide +kernel
  have h3 : "http://www.w3.org/2001/XMLSchema#" ++ "unsignedShort" = "http://www.w3.org/2001/XMLSchema#unsignedShort" := by
    decide +kernel
  have h4 : "http://www.w3.org/2001/XMLSchema#" ++ "unsignedByte" = "http://www.w3.org/2001/XMLSchema#unsignedByte" := by
    decide +kernel
  simp only [isUnsignedLong, List.any_cons, List.any_nil, Bool.or_eq_true, beq_iff_eq, h1, h2, h3, h4, Bool.false_eq_true,
    or_false]

/-- **C49**, tags of layouts. The tag of a layout that has the property `cbor:tag`, with a decimal literal of type
`xsd:unsignedLong` (or derived) as value, is the number denoted by the literal. A layout without the property has no tag.
Literals of other types, other strings, numbers that do not fit in 64 bits and resources that are not typed literals are
reported. -/
theorem C49_tag [DecidableEq R] (extra : R → Option (List (R × R))) (iriResource : String → Option R)
    (literalsOf : R → List RdfLit) (ref prop : R) (props : List (R × R))
    (he : extra ref = some props) (hp : iriResource "https://schema.treeldr.org/cbor#tag" = some prop) :
    (props.lookup prop = none → getLayoutTag extra iriResource literalsOf ref = .ok none) ∧
    ∀ value, props.lookup prop = some value →
      (∀ s ty, literalsOf value = [⟨s, .any ty⟩] →
        (ty = "http://www.w3.org/2001/XMLSchema#unsignedLong" ∨ ty = "http://www.w3.org/2001/XMLSchema#unsignedInt" ∨
            ty = "http://www.w3.org/2001/XMLSchema#unsignedShort" ∨ ty = "http://www.w3.org/2001/XMLSchema#unsignedByte" →
          (∀ d : List Char, s.toList = d → d ≠ [] → (∀ c ∈ d, c.isDigit = true) →
            (Nat.ofDigitChars 10 d 0 < 2 ^ 64 →
              getLayoutTag extra iriResource literalsOf ref = .ok (some (Nat.ofDigitChars 10 d 0))) ∧
            (2 ^ 64 ≤ Nat.ofDigitChars 10 d 0 → getLayoutTag extra iriResource literalsOf ref = .err (.value s))) ∧
          ((∃ c ∈ s.toList, c.isDigit = false ∧ c ≠ '+') →
            getLayoutTag extra iriResource literalsOf ref = .err (.value s))) ∧
        (ty ≠ "http://www.w3.org/2001/XMLSchema#unsignedLong" → ty ≠ "http://www.w3.org/2001/XMLSchema#unsignedInt" →
          ty ≠ "http://www.w3.org/2001/XMLSchema#unsignedShort" → ty ≠ "http://www.w3.org/2001/XMLSchema#unsignedByte" →
          getLayoutTag extra iriResource literalsOf ref = .err (.type ty))) ∧
      (literalsOf value = [] → getLayoutTag extra iriResource literalsOf ref = .err .nonLiteral) := by
  have hp' : iriResource cborTagIri = some prop := hp
  constructor
  · intro h
    simp only [getLayoutTag, he, Out.ofOption, Out.bind_ok, hp', h]
  · intro value hv
    have hg : getLayoutTag extra iriResource literalsOf ref = tagOfLiterals (literalsOf value) := by
      simp only [getLayoutTag, he, Out.ofOption, Out.bind_ok, hp', hv]
    rw [hg]
    refine ⟨?_, ?_⟩
    · intro s ty hl
      rw [hl]
      rw [← isUnsignedLong_iff]
      refine ⟨fun hu => ⟨?_, ?_⟩, fun n1 n2 n3 n4 => ?_⟩
      · intro d hd hne hdig
        obtain ⟨c, l, rfl⟩ := List.exists_cons_of_ne_nil hne
        have hall : (c :: l).all Char.isDigit = true := by rw [List.all_eq_true]; exact hdig
        have hc : c ≠ '+' := by rintro rfl; exact absurd (hdig '+' (by simp)) (by decide)
        have hparse : parseU64 s = if Nat.ofDigitChars 10 (c :: l) 0 < 2 ^ 64 then
            some (Nat.ofDigitChars 10 (c :: l) 0) else none := by
          rw [parseU64, hd]
          have hm : stripPlus (c :: l) = c :: l := by
            rw [stripPlus.eq_def]
            split
            · simp_all
            · rfl
          simp only [hm]
          rw [if_pos ⟨hne, hall⟩]
        refine ⟨fun hlt => ?_, fun hge => ?_⟩
        · rw [if_pos hlt] at hparse
          simp only [tagOfLiterals, hu, if_true, hparse]
        · rw [if_neg (by omega)] at hparse
          simp only [tagOfLiterals, hu, if_true, hparse]
      · rintro ⟨c, hc, hcd, hcp⟩
        have hparse : parseU64 s = none := by
          rw [parseU64]
          simp only
          rw [if_neg]
          rintro ⟨_, hall⟩
          rw [List.all_eq_true, stripPlus.eq_def] at hall
          split at hall
          · rename_i d hd
            rw [hd] at hc
            rcases List.mem_cons.1 hc with rfl | hc
            · exact hcp rfl
            · rw [hall c hc] at hcd; cases hcd
          · rw [hall c hc] at hcd; cases hcd
        simp only [tagOfLiterals, hu, if_true, hparse]
      · have hu : isUnsignedLong ty = false := by
          rw [← Bool.not_eq_true, isUnsignedLong_iff]
          simp only [n1, n2, n3, n4, or_self, not_false_eq_true]
        simp [tagOfLiterals, hu]
    · intro hl
      rw [hl]; rfl

example : KeyBased (fun l : List (Cbor Rat × Cbor Rat) => l) := fun _ _ _ h => h

/-- One layout, `1`, with tag `42`. -/
def tag42 (r : Nat) : Out InvalidTag (Option Nat) :=
  getLayoutTag (fun r => some (if r = 1 then [(10, 11)] else [])) (fun s => if s = cborTagIri then some 10 else none)
    (fun r => if r = 11 then [⟨"42", .any "http://www.w3.org/2001/XMLSchema#unsignedByte"⟩] else []) r

example : tag42 1 = .ok (some 42) ∧ tag42 2 = .ok none := by decide +kernel

example : (TypedValue.list [.literal (.textString "a" 1), .literal (.textString "b" 2)] 3).toTaggedCbor (fun q => q)
    (fun l => l) tag42 = .ok (.array [.tag 42 (.text "a"), .text "b"]) := by
  have h1 : tag42 1 = .ok (some 42) := by decide +kernel
  have h2 : tag42 2 = .ok none := by decide +kernel
  have h3 : tag42 3 = .ok none := by decide +kernel
  simp [TypedValue.toTaggedCbor, TypedValue.itemsToTaggedCbor, TypedLiteral.toCbor, Out.lift, addTag,
    TypedLiteral.type, h1, h2, h3]

/-! ## C50 -/

/-- **C50** (partial). A tree serialized with Serde and read back is the same tree, provided that its numbers are not zero
and are integers between `-2^63` and `2^64` (both excluded) or are represented exactly as floating point numbers. -/
theorem C50_serde_partial (ofF64 : F → Option Rat) (v : Value) (hv : v.WF)
    (hn : v.AllNumbers fun n => n ≠ 0 ∧
      ((n.den = 1 ∧ -2 ^ 63 < n.num ∧ n.num < 2 ^ 64) ∨ ofF64 (toF64 n) = some n)) :
    ∃ s, v.serialize toF64 = .ok s ∧ Value.deserialize ofF64 s = some v :=
  serde_roundtrip v hv hn

/-- **C50** fails for zero: its serialization panics. -/
theorem C50_zero_panics : (Value.literal (.number 0)).serialize toF64 = .panic := by
  simp [Value.serialize, Literal.serialize, Number.asNative, Number.bits, Number.firstU64Digit, Out.ofOption]

/-- **C50** fails for integers of more than 64 bits that are not represented exactly: two integers that have the same
floating point representation are serialized in the same way, hence one of them is not read back. -/
theorem C50_bignum_counterexample (a b : Int) (ha : 2 ^ 64 ≤ a) (hb : 2 ^ 64 ≤ b)
    (h : toF64 a = toF64 b) :
    (Value.literal (.number a)).serialize toF64 = (Value.literal (.number b)).serialize toF64 := by
  have key : ∀ n : Rat, n.den = 1 → 2 ^ 64 ≤ n.num →
      (Value.literal (.number n)).serialize toF64 = .ok (.f64 (toF64 n)) := by
    intro n hd hn
    have hbits : ¬Number.bits n.num ≤ 64 := fun h' => by
      have := (Number.bits_le (k := 64) (by decide)).1 h'; omega
    have hneg : ¬n.num < 0 := by omega
    simp only [Value.serialize, Literal.serialize, Number.asNative, hd, hneg, hbits, if_true, if_false, Out.bind_ok]
  rw [key a (Rat.den_intCast a) (by rw [Rat.num_intCast]; exact ha),
    key b (Rat.den_intCast b) (by rw [Rat.num_intCast]; exact hb), h]

example : jsonTree.WF ∧ jsonTree.AllNumbers fun n => n ≠ 0 ∧
    ((n.den = 1 ∧ -2 ^ 63 < n.num ∧ n.num < 2 ^ 64) ∨ some n = some n) := by
  refine ⟨jsonTree_wf, .map _ ?_ ?_⟩
  · intro e he; simp at he; rcases he with rfl | rfl <;> exact .textString _
  · intro e he
    simp at he
    rcases he with rfl | rfl
    · refine .list _ ?_
      intro v hv
      simp at hv
      rcases hv with rfl | rfl
      · exact .number _ ⟨by decide +kernel, .inr rfl⟩
      · exact .boolean _
    · exact .unit

end Verif.Props
