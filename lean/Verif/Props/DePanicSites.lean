import Verif.DePanicSites
import Verif.DehydrateExample

/-!
# Property C47 (causes of the panics of dehydration)

The causes are in `Verif/DehydrateSpec.lean` (`DeCause`, `Unwritable`).
-/

namespace Verif.Props

open Verif.Dehydrate

/-- **C47** (every panic has a cause). When dehydration panics, one of the literals it reaches, starting from the tree and the
layout it is given, is one that its layout cannot write (`Unwritable`). -/
theorem C47_panic_causes (c : DeCtx) (hc : c.reg.Closed) (n : Nat) (v : Value) (ref : Term) (o : DeOptions)
    (h : dehydrate c n v ref o = .panic) : ∃ q, Relation.ReflTransGen (DeVisits c) (ref, v) q ∧ DeCause c q := by
  by_contra hno
  simp only [not_exists, not_and] at hno
  unfold dehydrate at h
  cases hl : c.reg ref with
  | none => rw [hl] at h; simp at h
  | some l =>
    simp only [hl] at h
    have := dehydrateWith_no_cause c hc n v none ref hno
      ((List.range (l.inputCount.getD (o.inputCount.getD 1))).map .input) ⟨[], [], 0⟩
    rcases hx : dehydrateWith c n v none ref
      ((List.range (l.inputCount.getD (o.inputCount.getD 1))).map .input) ⟨[], [], 0⟩ with ⟨a | e | _ | _, s⟩ <;>
      rw [hx] at this h <;> simp only at h
    · split at h <;> simp at h
    · simp at h
    · exact this trivial
    · simp at h

/-- **C47** (the causes are real). If a literal of the tree, or of a field or an item at any depth, is one that its layout cannot
write, then dehydration does not return a dataset. -/
theorem C47_causes_prevent (c : DeCtx) (hd : c.reg.DistinctKeys) (n : Nat) (v : Value) (ref : Term) (o : DeOptions)
    (q : Term × Value) (hq : Relation.ReflTransGen (DeComponent c) (ref, v) q) (hc : DeCause c q)
    (r : List (Quad Term) × List Term) : dehydrate c n v ref o ≠ .ok r := by
  intro h
  unfold dehydrate at h
  cases hl : c.reg ref with
  | none => rw [hl] at h; simp at h
  | some l =>
    simp only [hl] at h
    rcases hx : dehydrateWith c n v none ref
      ((List.range (l.inputCount.getD (o.inputCount.getD 1))).map .input) ⟨[], [], 0⟩ with ⟨a | e | _ | _, s⟩ <;>
      rw [hx] at h <;> simp only at h
    · split at h
      · simp at h
      · rename_i hamb
        refine dehydrateWith_no_cause_of_ok c hd hq n none _ _ s hx (fun t t' hm => ?_) hc
        simp only [ambiguous, Bool.not_eq_true, List.any_eq_false] at hamb
        have := hamb _ hm
        exact (bne_eq_false_iff_eq.1 this).symm
    all_goals simp at h

namespace Witness

open DeExample

/-- A person whose age is `1 / 3`. -/
def youngAlice : Value := .map [(.text "age", .literal (.number (1 / 3))), (.text "name", .text "Alice")]

theorem young_age : DeComponent ctx (.iri "person", youngAlice) (.iri "number", .literal (.number (1 / 3))) :=
  ⟨.product person, val "number" 1, rfl, by simp,
    .product (l := person) (k := .text "age")
      (f := { intro := 1, value := val "number" 1, dataset := [q (.var 0) (DeExample.c "age") (.var 1)], required := false })
      (by simp) (by simp [person]), rfl⟩

theorem young_cause : DeCause ctx (.iri "number", .literal (.number (1 / 3))) :=
  ⟨.number number, rfl, .number (by decide +kernel)⟩

end Witness

open Witness DeExample in
example := C47_causes_prevent ctx reg_distinctKeys 7 youngAlice (.iri "person") opts _ (.single young_age) young_cause

open Witness DeExample in
example := C47_panic_causes ctx reg_closed 7 youngAlice (.iri "either") opts (by decide +kernel)

end Verif.Props
