import Verif.Ranges
import Verif.Collections

/-!
# Non-deterministic automata

Models `Automaton` of `layouts/src/utils/automaton.rs` L10-261: construction, determinization and product.
-/

set_option linter.unusedSectionVars false

namespace Verif

/-- `Transitions<Q>`: from labels (`none` is an ε-transition) to sets of states. `layouts/src/utils/automaton.rs` L11. -/
abbrev NRow (Q : Type _) := List (Option RangeSet × List Q)

/-- `Automaton<Q>`. `layouts/src/utils/automaton.rs` L14-18. -/
structure Nfa (Q : Type _) where
  transitions : List (Q × NRow Q)
  initials : List Q
  finals : List Q
  deriving DecidableEq, Repr

namespace Nfa

variable {Q : Type _} [LinearOrder Q]

/-- `Automaton::new`. `layouts/src/utils/automaton.rs` L20-34. -/
def new : Nfa Q := ⟨[], [], []⟩

/-- `declare_state`. `layouts/src/utils/automaton.rs` L60-62. -/
def declareState (a : Nfa Q) (q : Q) : Nfa Q := { a with transitions := AMap.modify a.transitions q [] id }

/-- `add`. `layouts/src/utils/automaton.rs` L47-58. -/
def add (a : Nfa Q) (source : Q) (label : Option RangeSet) (target : Q) : Nfa Q :=
  let a := a.declareState target
  { a with
    transitions := AMap.modify a.transitions source [] fun row => AMap.modify row label [] (OSet.insert target) }

/-- `add_initial_state`. `layouts/src/utils/automaton.rs` L68-70. -/
def addInitial (a : Nfa Q) (q : Q) : Nfa Q := { a with initials := OSet.insert q a.initials }

/-- `add_final_state`. `layouts/src/utils/automaton.rs` L80-82. -/
def addFinal (a : Nfa Q) (q : Q) : Nfa Q := { a with finals := OSet.insert q a.finals }

/-- `successors`. `layouts/src/utils/automaton.rs` L43-45, L761-779. -/
def row (a : Nfa Q) (q : Q) : NRow Q := (AMap.get a.transitions q).getD []

/-- The ε-transitions of a state. `layouts/src/utils/automaton.rs` L91-96. -/
def epsilon (a : Nfa Q) (q : Q) : List Q := (AMap.get (a.row q) none).getD []

/-- The number of transitions: with the size of the initial stack, it bounds the number of iterations of
`modulo_epsilon_state`. -/
def size (a : Nfa Q) : Nat := (a.transitions.map fun e => (e.2.map fun r => r.2.length).sum).sum

/-- The loop of `modulo_epsilon_state`. `layouts/src/utils/automaton.rs` L85-99. -/
def closureLoop (a : Nfa Q) (qs : List Q) : Option (List Q) :=
  explore id (fun q => some (a.epsilon q)) (qs.length + a.size) [] qs.reverse

/-- `modulo_epsilon_state`. `layouts/src/utils/automaton.rs` L84-102. The default value is never used: see
`closureLoop_total`. -/
def closure (a : Nfa Q) (qs : List Q) : List Q := OSet.ofList ((a.closureLoop qs).getD [])

/-- The set of states added to the targets of a range. `layouts/src/utils/automaton.rs` L128-131. -/
def closures (a : Nfa Q) (targets : List Q) : List Q := targets.foldl (fun s q => OSet.extend s (a.closure [q])) []

/-- The update of the ranges of one label. `layouts/src/utils/automaton.rs` L114-138. The assertion of L137 cannot fail, as
the ranges of a set are not empty. -/
def updateLabel (a : Nfa Q) (map : RangeMap (List Q)) (label : RangeSet) (targets : List Q) : RangeMap (List Q) :=
  label.foldl (fun map range =>
    map.update range fun current => some (OSet.extend (current.getD []) (a.closures targets))) map

/-- The update by the transitions of one state. `layouts/src/utils/automaton.rs` L111-141. -/
def updateRow (a : Nfa Q) (map : RangeMap (List Q)) (row : NRow Q) : RangeMap (List Q) :=
  row.foldl (fun map e =>
    match e.1 with
    | some label => a.updateLabel map label e.2
    | none => map) map

/-- `determinize_transitions_for`. `layouts/src/utils/automaton.rs` L104-152. -/
def detTransitions (a : Nfa Q) (states : List Q) : RangeMap (List Q) :=
  states.foldl (fun map q => a.updateRow map (a.row q)) []

/-- `determinize`. `layouts/src/utils/automaton.rs` L154-187. What is computed for a state when it is first visited depends
on that state only, so that it is computed here after the exploration. `none`: `fuel` iterations are not enough. -/
def determinize (fuel : Nat) (a : Nfa Q) : Option (DetAut (List Q) CharRange) :=
  let initial := a.closure a.initials
  (explore id (fun s => some ((a.detTransitions s).map Prod.snd)) fuel [] [initial]).map fun visited =>
    { initial := initial
      finals := visited.reverse.filter fun s => s.any fun q => decide (q ∈ a.finals)
      transitions := visited.reverse.map fun s => (s, a.detTransitions s) }

section Product

variable {R S : Type _} [LinearOrder R] [LinearOrder S]

/-- The pairs of states that follow a pair, with the label. `layouts/src/utils/automaton.rs` L218-255. -/
def productEdges (a : Nfa Q) (b : Nfa R) (p : Q × R) : List (Option RangeSet × List (Q × R)) :=
  (a.row p.1).flatMap fun e =>
    match e.1 with
    | some la =>
      (b.row p.2).filterMap fun e' =>
        match e'.1 with
        | some lb =>
          let label := RangeSet.intersection la lb
          if label.isEmpty then none else some (some label, e.2.flatMap fun sa => e'.2.map fun sb => (sa, sb))
        | none => none
    | none =>
      match AMap.get (b.row p.2) none with
      | some sbs => [(none, e.2.flatMap fun sa => sbs.map fun sb => (sa, sb))]
      | none => []

/-- The transitions of a pair of states. `layouts/src/utils/automaton.rs` L216-255. -/
def productRow (a : Nfa Q) (b : Nfa R) (f : Q → R → S) (p : Q × R) : NRow S :=
  (a.productEdges b p).foldl (fun row e => AMap.modify row e.1 [] fun s => OSet.extend s (e.2.map fun t => f t.1 t.2)) []

/-- `product`. `layouts/src/utils/automaton.rs` L189-260. As in `determinize`, what is computed for each visited pair is
computed after the exploration. -/
def product (fuel : Nat) (a : Nfa Q) (b : Nfa R) (f : Q → R → S) : Option (Nfa S) :=
  let initials := a.initials.flatMap fun x => b.initials.map fun y => (x, y)
  (explore (fun p => f p.1 p.2) (fun p => some ((a.productEdges b p).flatMap Prod.snd)) fuel [] initials.reverse).map
    fun visited =>
      { initials := OSet.ofList (initials.map fun p => f p.1 p.2)
        finals := OSet.ofList ((visited.filter fun p => decide (p.1 ∈ a.finals) && decide (p.2 ∈ b.finals)).map fun p =>
          f p.1 p.2)
        transitions := visited.reverse.map fun p => (f p.1 p.2, a.productRow b f p) }

end Product

end Nfa

end Verif
