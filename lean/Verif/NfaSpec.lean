import Verif.Nfa
import Verif.AutomatonSpec

/-! # The language of a non-deterministic automaton -/

namespace Verif

variable {Q : Type _}

/-- There is a path from the first state to the second whose labels, without the ε-transitions, spell `w`. -/
inductive Nfa.Path (a : Nfa Q) : Q → List Nat → Q → Prop
  | nil (q : Q) : Path a q [] q
  | epsilon {q q' q'' : Q} {row : NRow Q} {qs : List Q} {w : List Nat} : (q, row) ∈ a.transitions → (none, qs) ∈ row →
      q' ∈ qs → Path a q' w q'' → Path a q w q''
  | char {q q' q'' : Q} {row : NRow Q} {label : RangeSet} {qs : List Q} {c : Nat} {w : List Nat} :
      (q, row) ∈ a.transitions → (some label, qs) ∈ row → label.Mem c → q' ∈ qs → Path a q' w q'' →
      Path a q (c :: w) q''

/-- The string `w` (a list of characters) is accepted. -/
def Nfa.Accepts (a : Nfa Q) (w : List Nat) : Prop := ∃ i ∈ a.initials, ∃ f ∈ a.finals, a.Path i w f

/-- What the Rust types guarantee of an automaton: the maps have one entry for each key, and labels are sets of
characters (increasing, nonempty ranges). -/
structure Nfa.WF (a : Nfa Q) : Prop where
  states : (a.transitions.map Prod.fst).Nodup
  labels : ∀ e ∈ a.transitions, (e.2.map Prod.fst).Nodup
  ranges : ∀ e ∈ a.transitions, ∀ r ∈ e.2, ∀ label, r.1 = some label → label.WF ∧ label.Valid

/-- No ε-transition. -/
def Nfa.EpsFree (a : Nfa Q) : Prop := ∀ e ∈ a.transitions, ∀ r ∈ e.2, r.1 ≠ none

end Verif
