import Verif.Messages
import Verif.Props.Display
import Verif.Props.ErrorCauses
import Verif.Props.DeErrorCauses

/-!
# Property C100: the messages of errors say which error it is
-/

set_option linter.unusedSectionVars false
set_option linter.unusedSimpArgs false

namespace Verif

open Message (lit)

/-- What the message shows of a part of the data: everything but layouts, nodes and positions. -/
def DataFragment.shown {R} : DataFragment R → DataFragment Unit
  | .discriminant _ => .discriminant ()
  | .variant _ name => .variant () name
  | .key _ k => .key () k
  | .orderedListNode _ _ _ => .orderedListNode () () ()
  | .sizedListItem _ _ => .sizedListItem () 0

/-- What is said of an error of hydration: its kind, the numbers, the part of the data, and the text of the layout not found. -/
inductive HySaid where
  | incompatibleLayout
  | invalidInputCount (expected found : Nat)
  | dataAmbiguity (f : DataFragment Unit)
  | missingData (f : DataFragment Unit)
  | unknownNumberDatatype
  | noMatchingLiteral
  | layoutNotFound (layout : List Char)

/-- What the message shows of an error of hydration. -/
def HyError.shown {R} (showRef : R → List Char) : HyError R → HySaid
  | .incompatibleLayout => .incompatibleLayout
  | .invalidInputCount expected found => .invalidInputCount expected found
  | .dataAmbiguity f => .dataAmbiguity f.shown
  | .missingData f => .missingData f.shown
  | .unknownNumberDatatype _ => .unknownNumberDatatype
  | .noMatchingLiteral => .noMatchingLiteral
  | .layoutNotFound layout => .layoutNotFound (showRef layout)

/-- What is said of an error of dehydration. -/
inductive DeSaid where
  | incompatibleLayout
  | invalidInputCount (expected found : Nat)
  | undeclaredVariable (x : Nat)
  | dataAmbiguity
  | termAmbiguity
  | layoutNotFound (layout : List Char)
  | missingRequiredKey (key : Value)

/-- What the message shows of an error of dehydration. -/
def DeError.shown (showRef : Term → List Char) : DeError → DeSaid
  | .incompatibleLayout => .incompatibleLayout
  | .invalidInputCount expected found => .invalidInputCount expected found
  | .undeclaredVariable x => .undeclaredVariable x
  | .dataAmbiguity => .dataAmbiguity
  | .termAmbiguity => .termAmbiguity
  | .layoutNotFound layout => .layoutNotFound (showRef layout)
  | .missingRequiredKey _ key _ => .missingRequiredKey key

namespace Message

/-- The kind of fragment, read in the message. -/
def fragment : List Char → Nat
  | 'l' :: 'a' :: _ => 0
  | 'v' :: _ => 1
  | 'k' :: _ => 2
  | 'l' :: 'i' :: 's' :: 't' :: ' ' :: 'n' :: _ => 3
  | 'l' :: 'i' :: 's' :: 't' :: ' ' :: 'i' :: _ => 4
  | _ => 5

/-- The kind of error of hydration, read in the message. -/
def hy : List Char → Nat
  | 'i' :: 'n' :: 'c' :: _ => 0
  | 'i' :: 'n' :: 'v' :: _ => 1
  | 'a' :: _ => 2
  | 'm' :: _ => 3
  | 'u' :: _ => 4
  | 'n' :: _ => 5
  | 'l' :: _ => 6
  | _ => 7

/-- The kind of error of dehydration, read in the message. -/
def de : List Char → Nat
  | 'i' :: 'n' :: 'c' :: _ => 0
  | 'i' :: 'n' :: 'v' :: _ => 1
  | 'u' :: _ => 2
  | 'd' :: _ => 3
  | 't' :: _ => 4
  | 'l' :: _ => 5
  | 'm' :: _ => 6
  | _ => 7

/-- The kind of fragment. -/
def fragmentKind {R} : DataFragment R → Nat
  | .discriminant _ => 0
  | .variant _ _ => 1
  | .key _ _ => 2
  | .orderedListNode _ _ _ => 3
  | .sizedListItem _ _ => 4

/-- The kind of error of hydration. -/
def hyKind {R} : HyError R → Nat
  | .incompatibleLayout => 0
  | .invalidInputCount _ _ => 1
  | .dataAmbiguity _ => 2
  | .missingData _ => 3
  | .unknownNumberDatatype _ => 4
  | .noMatchingLiteral => 5
  | .layoutNotFound _ => 6

/-- The kind of error of dehydration. -/
def deKind : DeError → Nat
  | .incompatibleLayout => 0
  | .invalidInputCount _ _ => 1
  | .undeclaredVariable _ => 2
  | .dataAmbiguity => 3
  | .termAmbiguity => 4
  | .layoutNotFound _ => 5
  | .missingRequiredKey _ _ _ => 6

variable {R : Type _} {quote : String → List Char}

theorem fragment_message (f : DataFragment R) : fragment (f.message quote) = fragmentKind f := by
  cases f <;> simp only [DataFragment.message, lit] <;> rfl

theorem hy_message (showRef : R → List Char) (e : HyError R) : hy (e.message quote showRef) = hyKind e := by
  cases e <;> simp only [HyError.message, lit] <;> rfl

theorem de_message (showRef : Term → List Char) (terms : List Char) (e : DeError) :
    de (e.message quote showRef terms) = deKind e := by
  cases e <;> simp only [DeError.message, lit] <;> rfl

theorem split_char {a b s t : List Char} {c : Char} (ha : c ∉ a) (hb : c ∉ b) (h : a ++ c :: s = b ++ c :: t) : a = b ∧ s = t := by
  induction a generalizing b with
  | nil =>
    cases b with
    | nil => injection h with _ h; exact ⟨rfl, h⟩
    | cons d b => injection h with h _; exact absurd (by simp [← h]) hb
  | cons d a ih =>
    cases b with
    | nil => injection h with h _; exact absurd (by simp [h]) ha
    | cons e b =>
      injection h with h1 h2
      obtain ⟨h3, h4⟩ := ih (fun hc => ha (by simp [hc])) (fun hc => hb (by simp [hc])) h2
      exact ⟨by rw [h1, h3], h4⟩

theorem toDigits_inj {m n : Nat} (h : Nat.toDigits 10 m = Nat.toDigits 10 n) : m = n := by
  have h1 := Nat.ofDigitChars_toDigits (b := 10) (n := m) (by decide) (by decide)
  have h2 := Nat.ofDigitChars_toDigits (b := 10) (n := n) (by decide) (by decide)
  rw [h] at h1
  exact h1.symm.trans h2

theorem no_comma (n : Nat) : ',' ∉ Nat.toDigits 10 n := fun h =>
  absurd (Number.isDigit_toDigits (n := n) _ h) (by decide)

theorem counts_inj {a b a' b' : Nat}
    (h : lit "invalid input count (expected " ++ Nat.toDigits 10 a ++ lit ", found " ++ Nat.toDigits 10 b ++ lit ")" =
      lit "invalid input count (expected " ++ Nat.toDigits 10 a' ++ lit ", found " ++ Nat.toDigits 10 b' ++ lit ")") :
    a = a' ∧ b = b' := by
  have h := List.append_cancel_right h
  simp only [List.append_assoc] at h
  have h := List.append_cancel_left h
  have hl : lit ", found " = ',' :: lit " found " := by
    simp only [lit]
    rfl
  rw [hl] at h
  obtain ⟨h1, h2⟩ := split_char (s := lit " found " ++ _) (t := lit " found " ++ _) (no_comma a) (no_comma a') h
  exact ⟨toDigits_inj h1, toDigits_inj (List.append_cancel_left h2)⟩

theorem wrap_inj {a b s t : List Char} (h : a ++ s ++ b = a ++ t ++ b) : s = t :=
  List.append_cancel_left (List.append_cancel_right h)

/-- The text of what is said of an error of hydration. -/
def said (quote : String → List Char) : HySaid → List Char
  | .incompatibleLayout => lit "incompatible layout"
  | .invalidInputCount expected found =>
    lit "invalid input count (expected " ++ Nat.toDigits 10 expected ++ lit ", found " ++ Nat.toDigits 10 found ++ lit ")"
  | .dataAmbiguity f => lit "ambiguous " ++ f.message quote
  | .missingData f => lit "missing required " ++ f.message quote
  | .unknownNumberDatatype => lit "unknown number datatype"
  | .noMatchingLiteral => lit "no matching literal representation found"
  | .layoutNotFound layout => lit "layout `" ++ layout ++ lit "` is undefined"

theorem shown_message (f : DataFragment R) : f.shown.message quote = f.message quote := by
  cases f <;> simp only [DataFragment.shown, DataFragment.message]

theorem said_shown (showRef : R → List Char) (e : HyError R) : said quote (e.shown showRef) = e.message quote showRef := by
  cases e <;> simp only [HyError.shown, HyError.message, said, shown_message]

theorem fragment_inj (hq : Display.Quotes quote) {f f' : DataFragment R} (h : f.message quote = f'.message quote) :
    f.shown = f'.shown := by
  have hk : fragmentKind f = fragmentKind f' := by rw [← fragment_message (quote := quote), h, fragment_message]
  match f, f', hk, h with
  | .discriminant _, .discriminant _, _, _ => rfl
  | .variant _ a, .variant _ b, _, h =>
    rw [DataFragment.message, DataFragment.message] at h
    have := String.toList_inj.1 (wrap_inj h)
    simp [DataFragment.shown, this]
  | .key _ a, .key _ b, _, h =>
    rw [DataFragment.message, DataFragment.message] at h
    have := Props.C99_text_determines_tree quote hq a b (wrap_inj h)
    simp [DataFragment.shown, this]
  | .orderedListNode _ _ _, .orderedListNode _ _ _, _, _ => rfl
  | .sizedListItem _ _, .sizedListItem _ _, _, _ => rfl

end Message

namespace Props

open Verif.Hydrate Verif.Dehydrate

variable {R : Type _} [DecidableEq R]

/-- **C100.** Two errors of hydration have the same message exactly if they say the same: the same kind of error, about the same key,
variant, numbers of inputs or text of a layout. -/
theorem C100_hydrate (quote : String → List Char) (hq : Display.Quotes quote) (showRef : R → List Char) (e e' : HyError R) :
    e.message quote showRef = e'.message quote showRef ↔ e.shown showRef = e'.shown showRef := by
  constructor
  · intro h
    have hk : Message.hyKind e = Message.hyKind e' := by rw [← Message.hy_message (quote := quote) showRef, h, Message.hy_message]
    cases e <;> cases e' <;> first | (simp [Message.hyKind] at hk; done) | skip
    · rfl
    · obtain ⟨rfl, rfl⟩ := Message.counts_inj h
      rfl
    · rw [HyError.shown, HyError.shown, Message.fragment_inj hq (List.append_cancel_left h)]
    · rw [HyError.shown, HyError.shown, Message.fragment_inj hq (List.append_cancel_left h)]
    · rfl
    · rfl
    · rw [HyError.shown, HyError.shown, Message.wrap_inj h]
  · intro h
    rw [← Message.said_shown, ← Message.said_shown, h]

/-- **C100** (dehydration). -/
theorem C100_dehydrate (quote : String → List Char) (hq : Display.Quotes quote) (showRef : Term → List Char) (terms terms' : List Char)
    (e e' : DeError) (h : e.message quote showRef terms = e'.message quote showRef terms') : e.shown showRef = e'.shown showRef := by
  have hk : Message.deKind e = Message.deKind e' := by
    rw [← Message.de_message (quote := quote) showRef terms, h, Message.de_message]
  cases e <;> cases e' <;> first | (simp [Message.deKind] at hk; done) | skip
  · rfl
  · obtain ⟨rfl, rfl⟩ := Message.counts_inj h
    rfl
  · rw [DeError.shown, DeError.shown, Message.toDigits_inj (List.append_cancel_left h)]
  · rfl
  · rfl
  · rw [DeError.shown, DeError.shown, Message.wrap_inj h]
  · rw [DeError.shown, DeError.shown, C99_text_determines_tree quote hq _ _ (Message.wrap_inj h)]

/-- **C100** (a missing key of the data). If hydration fails with the message "missing required key `k`", then the layout, or one it
refers to, is that of a record with a required field of this name, for which the data has no value. -/
theorem C100_missing_key (quote : String → List Char) (hq : Display.Quotes quote) (showRef : R → List Char) (c : HyCtx R)
    (hreg : c.reg.Closed) (hds : c.ds.Nodup) (hni : c.reg.NoVariantIntro) (n : Nat) (g : Option R) (ref : R) (inputs : List R)
    (key : Value) (e : HyError R) (h : hydrate c n g ref inputs = .err e)
    (hm : e.message quote showRef = lit "missing required key `" ++ Display.value quote key ++ lit "`") :
    ∃ q l σ field, Relation.ReflTransGen (Place.Component c) ⟨g, ref, inputs⟩ q ∧ c.reg q.layout = some (.product l) ∧
      q.Match c l.intro l.dataset σ ∧ (key, field) ∈ l.fields ∧ field.required = true ∧
      ∀ τ, ¬ IsMatch c.ds (σ ++ List.replicate field.intro none) (inGraph q.graph field.dataset) τ := by
  have h' : e.message quote showRef = (HyError.missingData (.key ref key) : HyError R).message quote showRef := by
    rw [hm, HyError.message, DataFragment.message, ← List.append_assoc, ← List.append_assoc]
    congr 2
    simp only [lit]
    decide +kernel
  have hs := (C100_hydrate quote hq showRef e _).1 h'
  match e, h, hs with
  | .missingData (.key layout₁ key₁), h, hs =>
    simp only [HyError.shown, DataFragment.shown, HySaid.missingData.injEq, DataFragment.key.injEq, true_and] at hs
    subst hs
    obtain ⟨q, l, σ, field, hq, rfl, h1, h2⟩ := C93_missing_key c hreg hds hni n g ref inputs layout₁ key₁ h
    exact ⟨q, l, σ, field, hq, h1, h2⟩

/-- **C100** (a missing key of the tree). If dehydration fails with the message "missing required key `k`", then it is true of the tree
that a map to be written as a record lacks the required key `k`. -/
theorem C100_missing_required_key (quote : String → List Char) (hq : Display.Quotes quote) (showRef : Term → List Char)
    (terms : List Char) (c : DeCtx) (hd : c.reg.DistinctKeys) (hc : c.reg.Closed) (n : Nat) (v : Value) (ref : Term) (o : DeOptions)
    (key : Value) (e : DeError) (h : dehydrate c n v ref o = .err e)
    (hm : e.message quote showRef terms = lit "missing required key `" ++ Display.value quote key ++ lit "`") :
    ∃ layout value, DeFails c (startPlace c v ref o) (.missingRequiredKey layout key value) := by
  have hs := C100_dehydrate quote hq showRef terms terms e (.missingRequiredKey ref key []) hm
  match e, h, hs with
  | .missingRequiredKey layout₁ key₁ value, h, hs =>
    simp only [DeError.shown, DeSaid.missingRequiredKey.injEq] at hs
    subst hs
    rcases C94_error_true c hd hc n v ref o _ h with h' | ⟨h', -⟩
    · exact ⟨layout₁, value, h'⟩
    · exact nomatch h'

section

open Example ErrorWitness

/-- A person without name: the message. -/
theorem Witness.C100_message : (HyError.missingData (.key 0 (.text "name")) : HyError Nat).message Quote.json (Nat.toDigits 10) =
    "missing required key `\"name\"`".toList := by
  simp only [HyError.message, DataFragment.message, lit]
  decide +kernel

example := C100_missing_key Quote.json Quote.quotes (Nat.toDigits 10) nameless reg_closed (by decide) reg_noVariantIntro 5 none 0 [100]
  (.text "name") (.missingData (.key 0 (.text "name"))) (by decide +kernel) (by
    simp only [HyError.message, DataFragment.message, lit]
    decide +kernel)

-- the same layout and kind of error, another key: another message
example : (HyError.missingData (.key 0 (.text "name")) : HyError Nat).message Quote.json (Nat.toDigits 10) ≠
    (HyError.missingData (.key 0 (.text "age"))).message Quote.json (Nat.toDigits 10) := fun h =>
  absurd ((C100_hydrate Quote.json Quote.quotes _ _ _).1 h) (by simp [HyError.shown, DataFragment.shown, Value.text])

end

section

open DeExample DeErrorWitness

example := C100_missing_required_key Quote.json Quote.quotes (fun _ => []) [] ctx reg_distinctKeys reg_closed 5 nameless (.iri "person")
  opts (.text "name") (.missingRequiredKey (.iri "person") (.text "name") [(.text "age", .literal (.number 1))]) (by decide +kernel) rfl

end

end Props

end Verif
