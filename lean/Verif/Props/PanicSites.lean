import Verif.PanicSitesMain
import Verif.HydrateExample

/-!
# Property C45 (causes of the panics of hydration)

The causes are in `Verif/PanicSpec.lean` (`PanicCause`).
-/

set_option linter.unusedSectionVars false

namespace Verif.Props

open Verif.Hydrate

variable {R : Type _} [DecidableEq R]

/-- **C45** (every panic has a cause). When hydration panics, one of the places it reads, starting from the layout and the
inputs it is given, is in one of the situations of `PanicCause`, or has a sum with a variant that declares variables. -/
theorem C45_panic_causes (c : HyCtx R) (hreg : c.reg.Closed) (hds : c.ds.Nodup) (hle : TotalOrder c.le) (n : Nat)
    (g : Option R) (ref : R) (inputs : List R) (h : hydrate c n g ref inputs = .panic) :
    ∃ q, Relation.ReflTransGen (Place.Reads c) ⟨g, ref, inputs⟩ q ∧ (PanicCause c q ∨ q.VariantDeclares c) :=
  panic_cause hreg hds hle (p := ⟨g, ref, inputs⟩) h

/-- **C45** (the causes are real). If the layout and the inputs hydration is given, or one of their components, is in one of the
situations of `PanicCause`, then hydration does not return a value. -/
theorem C45_causes_prevent (c : HyCtx R) (hreg : c.reg.Closed) (hds : c.ds.Nodup) (hle : TotalOrder c.le)
    (hni : c.reg.NoVariantIntro) (n : Nat) (g : Option R) (ref : R) (inputs : List R) (q : Place R)
    (hq : Relation.ReflTransGen (Place.Component c) ⟨g, ref, inputs⟩ q) (hc : PanicCause c q) (v : TypedValue R) :
    hydrate c n g ref inputs ≠ .ok v :=
  cause_component hreg hds hle hni (p := ⟨g, ref, inputs⟩) n q hq hc

/-- **C45** (no cause, no panic). If none of the places that hydration reads is in one of the situations of `PanicCause`, nor has a
sum with a variant that declares variables, then hydration does not panic, with any bound. -/
theorem C45_no_cause_no_panic (c : HyCtx R) (hreg : c.reg.Closed) (hds : c.ds.Nodup) (hle : TotalOrder c.le)
    (g : Option R) (ref : R) (inputs : List R)
    (hno : ∀ q, Relation.ReflTransGen (Place.Reads c) ⟨g, ref, inputs⟩ q → ¬ PanicCause c q ∧ ¬ q.VariantDeclares c) (n : Nat) :
    hydrate c n g ref inputs ≠ .panic := fun h => by
  obtain ⟨q, hq, hc⟩ := C45_panic_causes c hreg hds hle n g ref inputs h
  exact hc.elim (hno q hq).1 (hno q hq).2

/-- **C45** (values). At a layout of Booleans, byte strings, texts or identifiers, hydration panics exactly when one of the
situations of `PanicCause` occurs. -/
theorem C45_value_panics (c : HyCtx R) (hreg : c.reg.Closed) (hds : c.ds.Nodup) (hle : TotalOrder c.le) (g : Option R) (ref : R)
    (inputs : List R) (l : Layout R) (hp : Place.Has c ⟨g, ref, inputs⟩ l)
    (hl : (∃ b, l = .boolean b) ∨ (∃ b, l = .byteString b) ∨ (∃ b, l = .textString b) ∨ ∃ b, l = .id b) (n : Nat) :
    hydrate c (n + 1) g ref inputs = .panic ↔ PanicCause c ⟨g, ref, inputs⟩ := by
  refine ⟨fun h => ?_, fun h => value_cause hreg hds hp hl h n⟩
  obtain ⟨q, hq, hc⟩ := C45_panic_causes c hreg hds hle _ g ref inputs h
  have other : ∀ {l'}, Place.Has c ⟨g, ref, inputs⟩ l' → l' = l := fun h => has_unique h hp
  rcases Relation.ReflTransGen.cases_head hq with rfl | ⟨q', ⟨fmt, σ, h, _⟩, _⟩
  · refine hc.resolve_right fun ⟨s, h, _⟩ => ?_
    rcases hl with ⟨b, rfl⟩ | ⟨b, rfl⟩ | ⟨b, rfl⟩ | ⟨b, rfl⟩ <;> simpa using other h
  · exfalso
    rcases hl with ⟨b, rfl⟩ | ⟨b, rfl⟩ | ⟨b, rfl⟩ | ⟨b, rfl⟩ <;> rcases h with h | h <;> cases h <;>
      exact absurd (other (by assumption)) (by simp)

namespace Witness

open Example

/-- The example, where the name has a language. -/
def frenchCtx : HyCtx Nat :=
  { ctx with literalsOf := fun r => if r = 101 then [⟨"Alice", .langString "fr"⟩] else literalsOf r }

/-- The name of the person is a component of the person. -/
theorem french_name : Place.Component frenchCtx ⟨none, 0, [100]⟩ ⟨none, 1, [101]⟩ := by
  have hp : Place.Has frenchCtx ⟨none, 0, [100]⟩ person := ⟨rfl, by simp [person, Layout.inputCount]⟩
  have hm : Place.Match frenchCtx ⟨none, 0, [100]⟩ 0 [q (.var 0) (.res 10) (.res 11)] [some 100] :=
    (match_place (c := frenchCtx) (frag := .discriminant 0) (p := ⟨none, 0, [100]⟩) (k := 1) (by decide)
      (by simp [PatsBelow, patsVars, QuadPat.vars, Pattern.vars, q]) rfl).1 (by decide +kernel)
  have hu : UniqueMatch frenchCtx.ds ([some 100] ++ List.replicate 1 none) (inGraph none [q (.var 0) (.res 12) (.var 1)])
      [some 100, some 101] :=
    (requiredMatch_eq_ok frenchCtx (by decide) (.discriminant 0) [some 100, none] [q (.var 0) (.res 12) (.var 1)] none
      (declared_of_below (by simp [PatsBelow, patsVars, QuadPat.vars, Pattern.vars, q] : PatsBelow 2 _) (by simp)) _).1 (by decide +kernel)
  refine ⟨⟨1, [.var 1], none⟩, [some 100, some 101], ?_, ?_, ?_, rfl⟩
  · exact .field (e := (.text "name", { intro := 1, value := ⟨1, [.var 1], none⟩, dataset := [q (.var 0) (.res 12) (.var 1)], required := true }))
      hp hm (by simp) hu
  · exact .cons rfl .nil
  · rfl

/-- It has a language. -/
theorem french_cause : PanicCause frenchCtx ⟨none, 1, [101]⟩ := by
  have hp : Place.Has frenchCtx ⟨none, 1, [101]⟩ text := ⟨rfl, by simp [text, Layout.inputCount]⟩
  have hm : Place.Match frenchCtx ⟨none, 1, [101]⟩ 0 [] [some 101] :=
    (match_place (c := frenchCtx) (frag := .discriminant 0) (p := ⟨none, 1, [101]⟩) (k := 1) (by decide)
      (by simp [PatsBelow, patsVars]) rfl).1 (by decide +kernel)
  exact .language (r := 101) (lit := ⟨"Alice", .langString "fr"⟩) (t := "fr") hp rfl ⟨_, hm, rfl⟩ (by simp [frenchCtx, ctx]) rfl

/-- A text without language has no cause of panic. -/
theorem text_fine (q : Place Nat) (hq : Relation.ReflTransGen (Place.Reads ctx) ⟨none, 1, [101]⟩ q) :
    ¬ PanicCause ctx q ∧ ¬ q.VariantDeclares ctx := by
  have hp : Place.Has ctx ⟨none, 1, [101]⟩ text := ⟨rfl, by simp [text, Layout.inputCount]⟩
  have hu : ∀ {l}, Place.Has ctx ⟨none, 1, [101]⟩ l → l = text := fun h => has_unique h hp
  have hm : Place.Match ctx ⟨none, 1, [101]⟩ 0 [] [some 101] :=
    (match_place (c := ctx) (frag := .discriminant 0) (p := ⟨none, 1, [101]⟩) (k := 1) (by decide)
      (by simp [PatsBelow, patsVars]) rfl).1 (by decide +kernel)
  have hr : ∀ fmt σ, ¬ (ComponentFormat ctx ⟨none, 1, [101]⟩ fmt σ ∨ VariantFormat ctx ⟨none, 1, [101]⟩ fmt σ) := by
    rintro fmt σ (h | h) <;> cases h <;> rename_i h _ _ _ <;> simp [text] at hu <;> exact absurd (hu (by assumption)) (by simp)
  have hq : q = ⟨none, 1, [101]⟩ := by
    rcases Relation.ReflTransGen.cases_head hq with h | ⟨q', ⟨fmt, σ, h, _⟩, _⟩
    · exact h.symm
    · exact absurd h (hr fmt σ)
  subst hq
  have hlit : ∀ {l d}, Place.Has ctx ⟨none, 1, [101]⟩ l → l.literalLayout = some d →
      d = ⟨1, 0, [], .var 0, 20⟩ := by
    intro l d h hd
    rw [hu h] at hd
    simpa [text, Layout.literalLayout, eq_comm] using hd
  have hat : ∀ {r}, LiteralAt ctx ⟨none, 1, [101]⟩ ⟨1, 0, [], .var 0, 20⟩ r → r = 101 := by
    rintro r ⟨σ, h, hr⟩
    rw [hm.2 σ h.1] at hr
    simpa [Pattern.Denotes, Subst.get, eq_comm] using hr
  refine ⟨fun h => ?_, fun ⟨l, h, _⟩ => by simpa [text] using hu h⟩
  cases h with
  | unboundPart h => exact hr _ _ h
  | unboundLiteral h hd h' hno =>
    obtain rfl := hlit h hd
    exact hno 101 (by rw [hm.2 _ h'.1]; rfl)
  | language h hd hr hl e =>
    obtain rfl := hlit h hd
    obtain rfl := hat hr
    simp [ctx, literalsOf] at hl
    simp [hl] at e
  | literals h hd hr hl =>
    obtain rfl := hlit h hd
    obtain rfl := hat hr
    revert hl
    decide
  | boolean h => simpa [text] using hu h
  | number h => simpa [text] using hu h
  | byteString h => simpa [text] using hu h
  | unboundId h => simpa [text] using hu h
  | iris h => simpa [text] using hu h
  | unboundHead h => simpa [text] using hu h
  | unboundTail h => simpa [text] using hu h
  | unboundRest h => simpa [text] using hu h
  | noVariant h => simpa [text] using hu h
  | variants h => simpa [text] using hu h

end Witness

open Example Witness in
example := C45_no_cause_no_panic ctx reg_closed ds_nodup le_total none 1 [101] text_fine

open Example Witness in
example := C45_causes_prevent frenchCtx reg_closed ds_nodup le_total reg_noVariantIntro 9 none 0 [100] _ (.single french_name)
  french_cause

open Example Witness in
example : hydrate frenchCtx 4 none 1 [101] = .panic :=
  (C45_value_panics frenchCtx reg_closed ds_nodup le_total none 1 [101] text ⟨rfl, by simp [text, Layout.inputCount]⟩
    (.inr (.inr (.inl ⟨_, rfl⟩))) 3).2 french_cause

open Example Witness in
example := C45_panic_causes frenchCtx reg_closed ds_nodup le_total 5 none 0 [100] (by decide +kernel)

-- no variant of the sum has a value
open Example in
example := C45_panic_causes ctx reg_closed ds_nodup le_total 5 none 4 [5] (by decide +kernel)

end Verif.Props
