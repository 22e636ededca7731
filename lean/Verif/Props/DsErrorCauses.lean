import Verif.DsErrorSites
import Verif.Props.Derive

/-!
# Property C95: what an error of derived deserialization says is true of the data

What each error says is in `Verif/DsErrorSpec.lean` (`DsCause`), with the parts of a value (`DsPart`) and the places where they are
read (`Place.DsReads`). Places are those of `Verif/PanicSpec.lean`.
-/

set_option linter.unusedSectionVars false

namespace Verif.Props

open Verif.Derived

variable {R : Type} [DecidableEq R]

/-- **C95** (errors are true). When derived code returns an error, what the error says is true of the type and the inputs it is
given, or of a part of the value: a field, an element, an item, a variant, or a part of one of them. -/
theorem C95_error_true (c : DsCtx R) (hreg : c.reg.Closed) (hwt : c.reg.WellTyped) (hds : c.ds.Nodup) (n : Nat) (g : Option R) (ref : R)
    (inputs : List R) (hin : ∀ l k, c.reg ref = some l → l.inputCount = some k → inputs.length = k) (e : DsError)
    (h : deserialize c n g ref inputs = .err e) :
    ∃ q, Relation.ReflTransGen (Place.DsReads c) ⟨g, ref, inputs⟩ q ∧ DsCause c q e :=
  err_cause hreg hwt hds (p := ⟨g, ref, inputs⟩) hin h

/-- **C95** (what errors say prevents reading). If what some error says is true of the type and the inputs derived code is given, or
of a part of the value, then derived code does not return a value. -/
theorem C95_causes_prevent (c : DsCtx R) (hreg : c.reg.Closed) (hwt : c.reg.WellTyped) (hds : c.ds.Nodup) (n : Nat) (g : Option R)
    (ref : R) (inputs : List R) (hin : ∀ l k, c.reg ref = some l → l.inputCount = some k → inputs.length = k) (q : Place R)
    (e : DsError) (hq : Relation.ReflTransGen (Place.DsReads c) ⟨g, ref, inputs⟩ q) (hc : DsCause c q e) (v : TypedValue R) :
    deserialize c n g ref inputs ≠ .ok v :=
  fun h => ok_no_cause hreg hwt hds (p := ⟨g, ref, inputs⟩) hin h hq hc

/-- **C95** (no cause, success). If every variable a layout uses is bound by its patterns, derived code with a sufficient bound
returns a value exactly if nothing that an error could say is true of the type and of the parts of the value. -/
theorem C95_succeeds_iff (c : DsCtx R) (hreg : c.reg.Closed) (hwt : c.reg.WellTyped) (hds : c.ds.Nodup)
    (hder : ∀ ref l, c.reg ref = some l → c.prim ref = none → l.Derivable)
    (hprim : ∀ ref p, c.prim ref = some p → ∃ l, c.reg ref = some l ∧ l.inputCount = some 1) (n : Nat) (g : Option R)
    (ref : R) (inputs : List R) (hin : ∀ l k, c.reg ref = some l → l.inputCount = some k → inputs.length = k)
    (hdef : (c.reg ref).isSome) (hfuel : deserialize c n g ref inputs ≠ .fuel) :
    (∃ v, deserialize c n g ref inputs = .ok v) ↔
      ∀ q, Relation.ReflTransGen (Place.DsReads c) ⟨g, ref, inputs⟩ q → ∀ e, ¬ DsCause c q e := by
  constructor
  · rintro ⟨v, h⟩ q hq e hc
    exact C95_causes_prevent c hreg hwt hds n g ref inputs hin q e hq hc v h
  · intro hno
    rcases h : deserialize c n g ref inputs with v | e | _ | _
    · exact ⟨v, rfl⟩
    · obtain ⟨q, hq, hc⟩ := C95_error_true c hreg hwt hds n g ref inputs hin e h
      exact absurd hc (hno q hq e)
    · exact absurd h (C61_no_panic c hreg hwt hds hder hprim n g ref inputs hin hdef)
    · exact absurd h hfuel

/-- **C95** (missing fields). If derived code says that a field is missing, there is a structure among the parts of the value that has
a field with this key, which is not optional, and whose patterns have no match. -/
theorem C95_missing_field (c : DsCtx R) (hreg : c.reg.Closed) (hwt : c.reg.WellTyped) (hds : c.ds.Nodup) (n : Nat) (g : Option R)
    (ref : R) (inputs : List R) (hin : ∀ l k, c.reg ref = some l → l.inputCount = some k → inputs.length = k) (key : Value)
    (h : deserialize c n g ref inputs = .err (.missingField key)) :
    ∃ q l σ field, Relation.ReflTransGen (Place.DsReads c) ⟨g, ref, inputs⟩ q ∧ c.reg q.layout = some (.product l) ∧
      q.OnlyMatch c (.product l) σ ∧ (key, field) ∈ l.fields ∧ field.required = true ∧
      ∀ τ, ¬ IsMatch c.ds (σ ++ List.replicate field.intro none) (inGraph q.graph field.dataset) τ := by
  obtain ⟨q, hq, hc⟩ := C95_error_true c hreg hwt hds n g ref inputs hin _ h
  cases hc with
  | @noField key σ₀ pats fmt hp hno =>
    generalize hk : PartKind.field key true = kind at hp
    cases hp with
    | @field l σ key' field h1 h2 h3 =>
      injection hk with hk1 hk2
      subst hk1
      exact ⟨q, l, σ, field, hq, h1.2, h2, h3, hk2.symm, hno⟩
    | variant => cases hk
    | element => cases hk
    | node => cases hk
    | item => cases hk

/-- **C95** (integers). If derived code says that a literal is invalid, there is an integer type among the parts of the value, and a
literal of its datatype that is not an integer within its bounds. -/
theorem C95_invalid_literal (c : DsCtx R) (hreg : c.reg.Closed) (hwt : c.reg.WellTyped) (hds : c.ds.Nodup) (n : Nat) (g : Option R)
    (ref : R) (inputs : List R) (hin : ∀ l k, c.reg ref = some l → l.inputCount = some k → inputs.length = k)
    (h : deserialize c n g ref inputs = .err .invalidLiteralValue) :
    ∃ q datatype lo hi r lit, Relation.ReflTransGen (Place.DsReads c) ⟨g, ref, inputs⟩ q ∧ c.prim q.layout = some (.int datatype lo hi) ∧
      q.inputs.head? = some r ∧ lit ∈ c.literalsOf r ∧ lit.type = .any datatype ∧
      ∀ z, c.parseInt lit.value = some z → z < lo ∨ hi < z := by
  obtain ⟨q, hq, hc⟩ := C95_error_true c hreg hwt hds n g ref inputs hin _ h
  cases hc with
  | @primInvalid dt lo hi r rest lit h1 h2 h3 h4 h5 =>
    refine ⟨q, dt, lo, hi, r, lit, hq, h1, by rw [h2]; rfl, h3, h4, fun z hz => ?_⟩
    by_contra hcon
    exact h5 ⟨z, hz, by omega, by omega⟩

namespace DsErrorWitness

open DeriveExample

/-- The example, with another dataset. -/
def withData (ds : List (Quad Nat)) : DsCtx Nat := { ctx with ds := ds }

/-- A person without name. -/
def nameless := withData [⟨100, 10, 11, none⟩]

/-- A person with two names. -/
def twoNames := withData [⟨100, 10, 11, none⟩, ⟨100, 12, 101, none⟩, ⟨100, 12, 102, none⟩]

/-- A person whose name is not a text. -/
def badName := withData [⟨100, 10, 11, none⟩, ⟨100, 12, 7, none⟩]

/-- A list without end. -/
def broken := withData [⟨200, 31, 102, none⟩]

/-- Alice is too old for the type. -/
def old := ctxWith (fun _ => true) either "300"

/-- The property of the nick name is unknown. -/
def noNick := ctxWith (fun r => r != 15) either "30"

theorem arity (ref r : Nat) : ∀ l k, reg either ref = some l → l.inputCount = some k →
    [r].length = k := by
  intro l k h
  have := reg_cases (P := fun _ l => l.inputCount = some 1) either rfl rfl rfl rfl rfl rfl rfl ref l h
  rw [this]
  rintro ⟨⟩
  rfl

end DsErrorWitness

open DsErrorWitness DeriveExample

-- The errors are returned, and what they say is true.
example : ∃ q l σ field, Relation.ReflTransGen (Place.DsReads nameless) ⟨none, 4, [100]⟩ q ∧ nameless.reg q.layout = some (.product l) ∧
    q.OnlyMatch nameless (.product l) σ ∧ (.text "name", field) ∈ l.fields ∧ field.required = true ∧
    ∀ τ, ¬ IsMatch nameless.ds (σ ++ List.replicate field.intro none) (inGraph q.graph field.dataset) τ :=
  C95_missing_field nameless (reg_closed _ either_closed) reg_wellTyped (by decide) 5 none 4 [100] (arity 4 100) (.text "name")
    (by decide +kernel)

example : ∃ q, Relation.ReflTransGen (Place.DsReads twoNames) ⟨none, 4, [100]⟩ q ∧ DsCause twoNames q .dataAmbiguity :=
  C95_error_true twoNames (reg_closed _ either_closed) reg_wellTyped (by decide) 5 none 4 [100] (arity 4 100) _ (by decide +kernel)

example : ∃ q, Relation.ReflTransGen (Place.DsReads badName) ⟨none, 0, [100]⟩ q ∧ DsCause badName q .missingData :=
  C95_error_true badName (reg_closed _ either_closed) reg_wellTyped (by decide) 5 none 0 [100] (arity 0 100) _ (by decide +kernel)

example : ∃ q, Relation.ReflTransGen (Place.DsReads broken) ⟨none, 4, [200]⟩ q ∧ DsCause broken q .missingData :=
  C95_error_true broken (reg_closed _ either_closed) reg_wellTyped (by decide) 5 none 4 [200] (arity 4 200) _ (by decide +kernel)

example : ∃ q, Relation.ReflTransGen (Place.DsReads noNick) ⟨none, 0, [100]⟩ q ∧ DsCause noNick q .missingData :=
  C95_error_true noNick (reg_closed _ either_closed) reg_wellTyped ds_nodup 5 none 0 [100] (arity 0 100) _ (by decide +kernel)

example : ∃ q, Relation.ReflTransGen (Place.DsReads ctx) ⟨none, 5, [102]⟩ q ∧ DsCause ctx q .literalTypeMismatch :=
  C95_error_true ctx (reg_closed _ either_closed) reg_wellTyped ds_nodup 5 none 5 [102] (arity 5 102) _ (by decide +kernel)

example : ∃ q, Relation.ReflTransGen (Place.DsReads ctx) ⟨none, 5, [999]⟩ q ∧ DsCause ctx q .expectedLiteral :=
  C95_error_true ctx (reg_closed _ either_closed) reg_wellTyped ds_nodup 5 none 5 [999] (arity 5 999) _ (by decide +kernel)

example : ∃ q, Relation.ReflTransGen (Place.DsReads ctx) ⟨none, 6, [999]⟩ q ∧ DsCause ctx q .missingId :=
  C95_error_true ctx (reg_closed _ either_closed) reg_wellTyped ds_nodup 5 none 6 [999] (arity 6 999) _ (by decide +kernel)

example : ∃ q datatype lo hi r lit, Relation.ReflTransGen (Place.DsReads old) ⟨none, 4, [100]⟩ q ∧ old.prim q.layout = some (.int datatype lo hi) ∧
    q.inputs.head? = some r ∧ lit ∈ old.literalsOf r ∧ lit.type = .any datatype ∧ ∀ z, old.parseInt lit.value = some z → z < lo ∨ hi < z :=
  C95_invalid_literal old (reg_closed _ either_closed) reg_wellTyped ds_nodup 5 none 4 [100] (arity 4 100) (by decide +kernel)

-- An unknown property prevents reading, whatever the data.
example (v : TypedValue Nat) (n : Nat) : deserialize (ctxWith (fun r => r != 10) either "30") n none 0 [100] ≠ .ok v :=
  C95_causes_prevent _ (reg_closed _ either_closed) reg_wellTyped ds_nodup n none 0 [100] (arity 0 100) ⟨none, 0, [100]⟩ .missingData .refl
    (.unknown (r := 10) (.own (l := person) ⟨rfl, rfl⟩ ⟨Example.q (.var 0) (.res 10) (.res 11), by simp [person, Layout.own], .inr (.inl rfl)⟩) rfl) v

-- Alice is read, and nothing that an error could say is true.
example : ∀ q, Relation.ReflTransGen (Place.DsReads ctx) ⟨none, 4, [100]⟩ q → ∀ e, ¬ DsCause ctx q e :=
  (C95_succeeds_iff ctx (reg_closed _ either_closed) reg_wellTyped ds_nodup Witness.derivable
    (by
      intro ref p h
      obtain ⟨l, h1, h2⟩ := laws.prim ref p h
      exact ⟨l, h1, describes_inputCount ctx h2⟩) 5 none 4 [100] (arity 4 100) rfl
    (by rw [derived_person]; simp)).1 ⟨_, derived_person⟩

end Verif.Props
