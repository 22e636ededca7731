import Verif.Layout

/-!
# Sums with one variant

Specification for C106. No further code is modelled.
-/

namespace Verif

/-- A sum with one variant: the layout `ref` with the same inputs and in the same graph, without patterns. -/
def SumLayout.single {R : Type _} (input : Nat) (name : String) (ref : R) : SumLayout R :=
  { input := input, intro := 0, dataset := [],
    variants := [{ name := name, intro := 0, value := ⟨ref, (List.range input).map .var, none⟩, dataset := [] }] }

end Verif
