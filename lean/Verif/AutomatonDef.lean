import Verif.Basic

/-!
# Automata: data types

Models the types of `layouts/src/utils/automaton.rs`. Characters are numbered consecutively (`Nat`): below the surrogates
this number is the code point, above them the code point minus 2048. A range of characters (`AnyRange<char>`) is an
inclusive interval. `BTreeMap`/`BTreeSet` are lists of entries/elements.
-/

namespace Verif

/-- `AnyRange<char>`, as an inclusive interval of characters; empty when `hi < lo`. -/
structure CharRange where
  lo : Nat
  hi : Nat
  deriving DecidableEq, Repr

/-- Membership of a character in a range. -/
def CharRange.contains (r : CharRange) (c : Nat) : Bool := decide (r.lo ≤ c) && decide (c ≤ r.hi)

/-- `DetAutomaton<Q, L>`. `layouts/src/utils/automaton.rs` L268-272. The map `Q ↦ (L ↦ Q)` is an association list. -/
structure DetAut (Q : Type _) (L : Type _) where
  initial : Q
  finals : List Q
  transitions : List (Q × List (L × Q))
  deriving DecidableEq, Repr

end Verif
