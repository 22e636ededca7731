import Verif.Ranges

/-! # The language of an automaton -/

namespace Verif

variable {Q : Type _}

/-- There is a path labelled `w` from the first state to the second. -/
inductive DetAut.Path (a : DetAut Q CharRange) : Q → List Nat → Q → Prop
  | nil (q : Q) : Path a q [] q
  | cons {q q' q'' : Q} {ts : List (CharRange × Q)} {r : CharRange} {c : Nat} {w : List Nat} : (q, ts) ∈ a.transitions →
      (r, q') ∈ ts → r.lo ≤ c → c ≤ r.hi → Path a q' w q'' → Path a q (c :: w) q''

/-- A transition leads from the first state to the second. -/
def DetAut.Follows {L : Type _} (a : DetAut Q L) (q q' : Q) : Prop := ∃ ts l, (q, ts) ∈ a.transitions ∧ (l, q') ∈ ts

/-- What the Rust types guarantee of a table of transitions: the maps have one entry for each key. -/
def DetAut.TableWF {L : Type _} (t : List (Q × List (L × Q))) : Prop :=
  (t.map Prod.fst).Nodup ∧ ∀ e ∈ t, (e.2.map Prod.fst).Nodup

/-- At most one transition applies: each state has one entry in the table of transitions, and each character is in the
label of at most one transition of that state. -/
def DetAut.Deterministic (a : DetAut Q CharRange) : Prop :=
  (a.transitions.map Prod.fst).Nodup ∧
  ∀ e ∈ a.transitions, ∀ t ∈ e.2, ∀ t' ∈ e.2, ∀ c, t.1.Mem c → t'.1.Mem c → t = t'

/-- The function `g` computes intersections of ranges, `none` when there is no common character. -/
def DetAut.Intersects (g : CharRange → CharRange → Option CharRange) : Prop :=
  (∀ r s t, g r s = some t → (∀ c, t.Mem c ↔ r.Mem c ∧ s.Mem c) ∧ ∃ c, t.Mem c) ∧
  (∀ r s, g r s = none → ∀ c, ¬ (r.Mem c ∧ s.Mem c))

/-- The string `w` (a list of characters) is accepted. -/
def DetAut.Accepts (a : DetAut Q CharRange) (w : List Nat) : Prop := ∃ q ∈ a.finals, a.Path a.initial w q

end Verif
