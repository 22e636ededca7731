import Verif.SyntaxPosLemmas
import Verif.Props.SyntaxParse
import Verif.NumberLemmas

/-!
# Properties of the diagnostics of layout definitions
-/

set_option linter.unusedSectionVars false
set_option linter.unusedSimpArgs false

namespace Verif

namespace PosExample

/-- `{ "type": "record", "fields": { "name": { "value": { "type": "text" } } } }`: there is no kind `text`. -/
def badType : Json :=
  .object [("type", .string "record"),
    ("fields", .object [("name", .object [("value", .object [("type", .string "text")])])])]

/-- `{ "type": "unit", "const": [1, 2], "type": "id" }`. -/
def twice : Json :=
  .object [("type", .string "unit"), ("const", .array [.number ['1'], .number ['2']]), ("type", .string "id")]

/-- `{ "type": "unit", "dataset": [["_:self", "a b", "_:x"]] }`. -/
def badIri : Json :=
  .object [("type", .string "unit"),
    ("dataset", .array [.array [.string "_:self", .string "a b", .string "_:x"]])]

/-- `{ "type": "boolean", "dataset": [["_:self", { "value": "v", "language": "en", "type": "ex:t" }, "_:x"]] }`: a literal with
both a type and a language. -/
def both : Json :=
  .object [("type", .string "boolean"),
    ("dataset", .array [.array [.string "_:self",
      .object [("value", .string "v"), ("language", .string "en"), ("type", .string "ex:t")], .string "_:x"]])]

/-- `{ "type": "unit", "extra": { "ex:height": 1e3 } }`. -/
def exponent : Json :=
  .object [("type", .string "unit"), ("extra", .object [("ex:height", .number ['1', 'e', '3'])])]

theorem badType_error : Pos.parseLayout (Pos.codeMap badType) SpExample.lib badType =
    .err (.invalidType 15 Pos.layoutTypes "text") := by rfl

theorem twice_error : Pos.parseLayout (Pos.codeMap twice) SpExample.lib twice = .err (.duplicateEntry 2 "type" 10) := by rfl

theorem badIri_error : Pos.parseLayout (Pos.codeMap badIri) SpExample.lib badIri = .err (.invalidPattern 9 "a b") := by rfl

theorem both_error : Pos.parseLayout (Pos.codeMap both) SpExample.lib both = .err (.unexpectedEntry 14 "language") := by rfl

theorem exponent_error : Pos.parseLayout (Pos.codeMap exponent) SpExample.lib exponent =
    .err (.integerOverflow 9 ['1', 'e', '3']) := by rfl

end PosExample

namespace Props

open Pos

/-- **C89**. The parser that keeps track of positions is the parser of the other properties (`C27`): positions never change what is
accepted, what it stands for or why it is rejected, and are always found. -/
theorem C89_same_parse (lib : ParseLib) (j : Json) :
    (Pos.parseLayout (codeMap j) lib j).mapErr Error.erase = Verif.parseLayout lib j := (parseLayout_agrees lib j).same

/-- **C89**. What the error says is true of the fragment of the document at its position. -/
theorem C89_true (lib : ParseLib) (j : Json) {e : Error} (h : Pos.parseLayout (codeMap j) lib j = .err e) : e.IsTrue lib j :=
  (parseLayout_agrees lib j).true e h

/-- A position where something is. -/
theorem position_lt {root : Json} {e : Error} {lib : ParseLib} (h : e.IsTrue lib root) :
    e.position < (fragments root).length ∧ ∀ t ∈ e.hints, ∀ p, t.position = some p → p < (fragments root).length := by
  have hlt : ∀ {p f}, fragmentAt root p = some f → p < (fragments root).length := fun h => (List.getElem?_eq_some_iff.1 h).1
  cases e with
  | unexpected => obtain ⟨j, h, _⟩ := h; exact ⟨hlt h, by simp [Error.hints]⟩
  | missingRequiredEntry => obtain ⟨j, h, _⟩ := h; exact ⟨hlt h, by simp [Error.hints]⟩
  | duplicateEntry p k p' =>
    obtain ⟨q, i, i', _, h, h'⟩ := h
    refine ⟨hlt h.key, fun t ht q hq => ?_⟩
    simp only [Error.hints, List.mem_singleton] at ht
    subst ht
    simp only [ErrorHint.position, Option.some.injEq] at hq
    exact hq ▸ hlt h'.key
  | unexpectedEntry => obtain ⟨q, i, o, ks, h, _⟩ := h; exact ⟨hlt h.key, by simp [Error.hints]⟩
  | missingType => obtain ⟨j, h, _⟩ := h; exact ⟨hlt h, by simp [Error.hints]⟩
  | invalidType => exact ⟨hlt h.1, by simp [Error.hints, ErrorHint.position]⟩
  | invalidRegex => obtain ⟨j, h, _⟩ := h; exact ⟨hlt h, by simp [Error.hints]⟩
  | invalidPattern => exact ⟨hlt h.1, by simp [Error.hints]⟩
  | invalidLangTag => obtain ⟨j, h, _⟩ := h; exact ⟨hlt h, by simp [Error.hints]⟩
  | invalidCompactIri => exact ⟨h.1.elim hlt hlt, by simp [Error.hints]⟩
  | missingQuadPattern => obtain ⟨j, h, _⟩ := h; exact ⟨hlt h, by simp [Error.hints]⟩
  | tooManyQuadPatterns => obtain ⟨j, h, _⟩ := h; exact ⟨hlt h, by simp [Error.hints]⟩
  | expectedInteger => exact ⟨hlt h.1, by simp [Error.hints]⟩
  | integerOverflow => exact ⟨hlt h.1, by simp [Error.hints]⟩

/-- **C89**. The tool always reports the error: the position of the error and those of its hints are in the document. The hints
without position are notes. -/
theorem C89_diagnostic (names : KindNames) (lib : ParseLib) (j : Json) {e : Error}
    (h : Pos.parseLayout (codeMap j) lib j = .err e) :
    diagnostic names (codeMap j) e =
      .ok ⟨(e.position, e.message names), e.hints.filterMap (fun t => t.position.map (·, t.message)),
        (e.hints.filter (·.position.isNone)).map ErrorHint.message⟩ ∧
      ∀ p ∈ e.position :: e.hints.filterMap ErrorHint.position, ∃ f, fragmentAt j p = some f := by
  have hp := position_lt (C89_true lib j h)
  have hcm : ∀ {p}, p < (fragments j).length → ∃ n, (codeMap j)[p]? = some n := fun {p} hp => by
    simp [codeMap, List.getElem?_eq_getElem hp]
  have hs : ∀ ts : List ErrorHint, (∀ t ∈ ts, ∀ p, t.position = some p → p < (fragments j).length) →
      hintLabels (codeMap j) ts = .ok (ts.filterMap (fun t => t.position.map (·, t.message)),
        (ts.filter (·.position.isNone)).map ErrorHint.message) := by
    intro ts
    induction ts with
    | nil => intro _; rfl
    | cons t ts ih =>
      intro ht
      rw [hintLabels, ih fun t' h' => ht t' (List.mem_cons_of_mem _ h'), List.filterMap_cons]
      cases hq : t.position with
      | none => simp [hq]
      | some p =>
        obtain ⟨n, hn⟩ := hcm (ht t (by simp) p hq)
        simp [hn, hq]
  obtain ⟨n, hn⟩ := hcm hp.1
  refine ⟨?_, fun p hm => ?_⟩
  · simp only [diagnostic, hn, hs _ hp.2]
    rfl
  · have : p < (fragments j).length := by
      rcases List.mem_cons.1 hm with rfl | hm
      · exact hp.1
      · obtain ⟨t, ht, hq⟩ := List.mem_filterMap.1 hm
        exact hp.2 t ht p hq
    exact ⟨_, List.getElem?_eq_getElem this⟩

set_option maxRecDepth 10000 in
/-- Concrete cases: the kind `text`, fifteen fragments into the file; the two entries `type`; an invalid pattern in a dataset; the
language of a literal that has a type. -/
example (names : KindNames) :
    diagnostic names (codeMap PosExample.badType) (.invalidType 15 layoutTypes "text") =
      .ok ⟨(15, "invalid type value"), [], ["possible values are `id`, `unit`, `boolean`, `number`, `bytes`, `string`, \
        `record`, `sum`, `list`, `set`, `tuple`, `union` and `intersection`", "found type `text`"]⟩ ∧
    fragmentAt PosExample.badType 15 = some (.value (.string "text")) ∧
    diagnostic names (codeMap PosExample.twice) (.duplicateEntry 2 "type" 10) =
      .ok ⟨(2, "duplicate entry `type`"), [(10, "also defined here")], []⟩ ∧
    (Error.invalidPattern 9 "a b").IsTrue SpExample.lib PosExample.badIri ∧
    (Error.unexpectedEntry 14 "language").IsTrue SpExample.lib PosExample.both :=
  ⟨rfl, (C89_true _ _ PosExample.badType_error).1,
    rfl, C89_true _ _ PosExample.badIri_error, C89_true _ _ PosExample.both_error⟩

/-- **C89** fails for the texts of some messages: those about an IRI, a pattern, a language tag, a number or a regular expression
show the position instead of what is wrong there. For the pattern `a b` the message is: invalid IRI or blank node identifier `9`. -/
theorem Witness.C89_message_shows_position (names : KindNames) :
    diagnostic names (codeMap PosExample.badIri) (.invalidPattern 9 "a b") =
      .ok ⟨(9, "invalid IRI or blank node identifier `9`"), [], []⟩ ∧
    Pos.parseLayout (codeMap PosExample.badIri) SpExample.lib PosExample.badIri = .err (.invalidPattern 9 "a b") ∧
    ∀ p s s', (Error.invalidPattern p s).message names = (Error.invalidPattern p s').message names ∧
      (Error.invalidLangTag p s).message names = (Error.invalidLangTag p s').message names ∧
      (Error.invalidCompactIri p s).message names = (Error.invalidCompactIri p s').message names :=
  ⟨rfl, PosExample.badIri_error, fun _ _ _ => ⟨rfl, rfl, rfl⟩⟩

/-- **C89**, integers. If a number without exponent is reported as too large, then it is an integer that does not fit in 64 bits;
`hn` says that the number is written as JSON numbers are. Missing: numbers with an exponent, see `Witness.C89_not_too_large`. -/
theorem C89_too_large_partial (lib : ParseLib) (j : Json) {p : Nat} {n : List Char}
    (h : Pos.parseLayout (codeMap j) lib j = .err (.integerOverflow p n))
    {neg : Bool} {ds : List Char} (hn : n = (if neg then '-' :: ds else ds)) (hd : ds ≠ []) (hds : ∀ c ∈ ds, c.isDigit = true) :
    fragmentAt j p = some (.value (.number n)) ∧
      ¬ (-2 ^ 63 ≤ (if neg then -(Nat.ofDigitChars 10 ds 0 : Int) else Nat.ofDigitChars 10 ds 0) ∧
        (if neg then -(Nat.ofDigitChars 10 ds 0 : Int) else Nat.ofDigitChars 10 ds 0) < 2 ^ 63) := by
  obtain ⟨h1, h2⟩ := C89_true lib j h
  refine ⟨h1, fun hz => h2 ⟨_, neg, ds, ?_, hd, hds, rfl, hz.1, hz.2⟩⟩
  cases neg
  · exact .inl ⟨hn, rfl⟩
  · exact .inr (.inr ⟨hn, rfl⟩)

/-- A concrete case: 9223372036854775808 is too large. -/
example : Pos.parseLayout (codeMap (.object [("type", .string "unit"), ("extra", .object [("ex:height",
      .number "9223372036854775808".toList)])])) SpExample.lib
    (.object [("type", .string "unit"), ("extra", .object [("ex:height", .number "9223372036854775808".toList)])]) =
      .err (.integerOverflow 9 "9223372036854775808".toList) := by rfl

/-- **C89** fails for numbers with an exponent: `1e3` is reported as "integer number is too large", but it is 1000. -/
theorem Witness.C89_not_too_large :
    Pos.parseLayout (codeMap PosExample.exponent) SpExample.lib PosExample.exponent =
      .err (.integerOverflow 9 ['1', 'e', '3']) ∧
    IsJsonNumber ['1', 'e', '3'] := by
  refine ⟨PosExample.exponent_error, ?_⟩
  rw [← Number.isJson_iff]
  decide +kernel

end Props

end Verif
