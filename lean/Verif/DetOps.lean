import Verif.Basic
import Verif.AutomatonSpec
import Verif.Ranges
import Verif.Collections

/-!
# Deterministic automata: operations

Models `DetAutomaton` of `layouts/src/utils/automaton.rs` L263-841. Nothing here assumes that the labels are ranges.
-/

set_option linter.unusedSectionVars false

namespace Verif

namespace DetAut

variable {Q L : Type _} [DecidableEq Q] [DecidableEq L]

/-- `new`. `layouts/src/utils/automaton.rs` L275-281. -/
def new (initial : Q) : DetAut Q L := ⟨initial, [], []⟩

/-- `transitions_from`, `successors`. `layouts/src/utils/automaton.rs` L333-339, L781-799. -/
def row (a : DetAut Q L) (q : Q) : List (L × Q) := (AMap.get a.transitions q).getD []

/-- `is_final_state`. `layouts/src/utils/automaton.rs` L321-323. -/
def isFinal (a : DetAut Q L) (q : Q) : Bool := decide (q ∈ a.finals)

/-- `add_final_state`. `layouts/src/utils/automaton.rs` L325-327. The set is a list whose order is not significant. -/
def addFinal (a : DetAut Q L) (q : Q) : DetAut Q L :=
  if q ∈ a.finals then a else { a with finals := a.finals ++ [q] }

/-- `entry(source).or_default().insert(label, target)`. -/
def addTo (t : List (Q × List (L × Q))) (source : Q) (label : L) (target : Q) : List (Q × List (L × Q)) :=
  AMap.modify t source [] fun row => AMap.insert row label target

/-- `add`. `layouts/src/utils/automaton.rs` L341-347. -/
def add (a : DetAut Q L) (source : Q) (label : L) (target : Q) : DetAut Q L :=
  { a with transitions := addTo a.transitions source label target }

/-! ## Reachable states -/

/-- `reachable_states_from`: the states returned by the iterator, in order. `layouts/src/utils/automaton.rs` L311-313,
L801-841. -/
def reachableStates (fuel : Nat) (a : DetAut Q L) (q : Q) : Option (List Q) :=
  (explore id (fun q => some ((a.row q).map Prod.snd)) fuel [] [q]).map List.reverse

/-- `select_states_from`: the visited states. `layouts/src/utils/automaton.rs` L367-386. `none`: the depth of recursion is
more than `fuel`. -/
def visitFrom (a : DetAut Q L) : Nat → Q → List Q → Option (List Q)
  | 0, _, _ => none
  | fuel + 1, q, visited =>
    if q ∈ visited then some visited
    else (a.row q).foldlM (fun visited e => visitFrom a fuel e.2 visited) (q :: visited)

/-- `select_states`. `layouts/src/utils/automaton.rs` L349-358. -/
def selectStates (fuel : Nat) (a : DetAut Q L) (f : Q → Bool) : Option (List Q) :=
  (a.visitFrom fuel a.initial []).map fun visited => visited.filter f

/-- `try_partition_from`. `layouts/src/utils/automaton.rs` L412-435. `fuel`: the depth of recursion. The state is made of the visited
states and of the partition. -/
def tryPartitionFrom {P E : Type _} [DecidableEq P] (a : DetAut Q L) (f : Q → Except E P) :
    Nat → Q → List Q × List (P × List Q) → Out E (List Q × List (P × List Q))
  | 0, _, _ => .fuel
  | fuel + 1, q, (visited, partition) =>
    if q ∈ visited then .ok (visited, partition)
    else
      match f q with
      | .error e => .err e
      | .ok p =>
        (a.row q).foldlM (fun s e => tryPartitionFrom a f fuel e.2 s)
          (q :: visited, AMap.modify partition p [] fun block => if q ∈ block then block else block ++ [q])

/-- `try_partition`. `layouts/src/utils/automaton.rs` L400-410. -/
def tryPartition {P E : Type _} [DecidableEq P] (fuel : Nat) (a : DetAut Q L) (f : Q → Except E P) : Out E (List (P × List Q)) :=
  (a.tryPartitionFrom f fuel a.initial ([], [])).bind fun s => .ok s.2

/-- `partition`. `layouts/src/utils/automaton.rs` L388-398. -/
def partition {P : Type _} [DecidableEq P] (fuel : Nat) (a : DetAut Q L) (f : Q → P) : Out Empty (List (P × List Q)) :=
  a.tryPartition fuel fun q => .ok (f q)

/-! ## Renaming -/

/-- `map.entry(q).or_insert_with(|| f(q)).clone()`, where `f` may have a state. -/
def cached {P τ : Type _} (f : τ → Q → P × τ) (s : List (Q × P) × τ) (q : Q) : P × List (Q × P) × τ :=
  match AMap.get s.1 q with
  | some p => (p, s)
  | none =>
    let r := f s.2 q
    (r.1, AMap.insert s.1 q r.1, r.2)

/-- The transitions of an automaton, in order. -/
def triples (t : List (Q × List (L × Q))) : List (Q × L × Q) := t.flatMap fun e => e.2.map fun x => (e.1, x.1, x.2)

/-- The loop over the transitions. `layouts/src/utils/automaton.rs` L529-536. -/
def mapTriples {P M τ : Type _} [DecidableEq P] [DecidableEq M] (f : τ → Q → P × τ) (g : L → M) :
    List (Q × L × Q) → DetAut P M → List (Q × P) × τ → DetAut P M × List (Q × P) × τ
  | [], result, s => (result, s)
  | (source, label, target) :: ts, result, s =>
    let (source, s) := cached f s source
    let (target, s) := cached f s target
    mapTriples f g ts (result.add source (g label) target) s

/-- The loop over the final states. `layouts/src/utils/automaton.rs` L538-541. -/
def mapFinals {P M τ : Type _} [DecidableEq P] (f : τ → Q → P × τ) :
    List Q → DetAut P M → List (Q × P) × τ → DetAut P M × List (Q × P) × τ
  | [], result, s => (result, s)
  | q :: qs, result, s =>
    let (p, s) := cached f s q
    mapFinals f qs (result.addFinal p) s

/-- `map`, and the names that have been given to states. `layouts/src/utils/automaton.rs` L511-544. The function on states
is an `FnMut`: it reads and changes a state `τ`. The function on labels is pure. -/
def mapNames {P M τ : Type _} [DecidableEq P] [DecidableEq M] (a : DetAut Q L) (f : τ → Q → P × τ) (t : τ) (g : L → M) :
    DetAut P M × List (Q × P) :=
  let (initial, s) := cached f ([], t) a.initial
  let (result, s) := mapTriples f g (triples a.transitions) (new initial) s
  let (result, s) := mapFinals f a.finals result s
  (result, s.1)

/-- `map`. -/
def map {P M τ : Type _} [DecidableEq P] [DecidableEq M] (a : DetAut Q L) (f : τ → Q → P × τ) (t : τ) (g : L → M) :
    DetAut P M := (a.mapNames f t g).1

/-- The loop of `try_map`, for a function on states that is pure. `layouts/src/utils/automaton.rs` L564-583. -/
def tryMapTriples {P M E : Type} [DecidableEq P] [DecidableEq M] (f : Q → Except E P) (g : L → Except E M) :
    List (Q × L × Q) → DetAut P M → Except E (DetAut P M)
  | [], result => .ok result
  | (source, label, target) :: ts, result => do
    let source ← f source
    let target ← f target
    let label ← g label
    tryMapTriples f g ts (result.add source label target)

/-- `try_map`. `layouts/src/utils/automaton.rs` L546-586. The functions are pure. -/
def tryMap {P M E : Type} [DecidableEq P] [DecidableEq M] (a : DetAut Q L) (f : Q → Except E P) (g : L → Except E M) :
    Except E (DetAut P M) := do
  let initial ← f a.initial
  tryMapTriples f g (triples a.transitions) (new initial)

/-! ## Product -/

section Product

variable {R S M N : Type _} [DecidableEq R] [DecidableEq S] [DecidableEq M] [DecidableEq N]

/-- The pairs of states that follow a pair, with the label. `layouts/src/utils/automaton.rs` L618-626. -/
def productEdges (a : DetAut Q L) (b : DetAut R M) (g : L → M → Option N) (p : Q × R) : List (N × Q × R) :=
  (a.row p.1).flatMap fun e => (b.row p.2).filterMap fun e' => (g e.1 e'.1).map fun l => (l, e.2, e'.2)

/-- The transitions of a pair of states. `layouts/src/utils/automaton.rs` L616-626. -/
def productRow (a : DetAut Q L) (b : DetAut R M) (f : Q → R → S) (g : L → M → Option N) (p : Q × R) : List (N × S) :=
  (a.productEdges b g p).foldl (fun row e => AMap.insert row e.1 (f e.2.1 e.2.2)) []

/-- `product`. `layouts/src/utils/automaton.rs` L588-631. What is computed for each visited pair is computed after the
exploration. -/
def product (fuel : Nat) (a : DetAut Q L) (b : DetAut R M) (f : Q → R → S) (g : L → M → Option N) : Option (DetAut S N) :=
  (explore (fun p => f p.1 p.2) (fun p => some ((a.productEdges b g p).map Prod.snd)) fuel [] [(a.initial, b.initial)]).map
    fun visited =>
      { initial := f a.initial b.initial
        finals := (visited.reverse.filter fun p => a.isFinal p.1 && b.isFinal p.2).map fun p => f p.1 p.2
        transitions := visited.reverse.map fun p => (f p.1 p.2, a.productRow b f g p) }

end Product

/-! ## Compression -/

/-- `single_transition_of`. `layouts/src/utils/automaton.rs` L636-644. -/
def singleTransition (a : DetAut Q L) (q : Q) : Option (L × Q) :=
  match AMap.get a.transitions q with
  | some [e] => some e
  | _ => none

/-- The inner loop of `compress`. `layouts/src/utils/automaton.rs` L662-671. `none`: more than `fuel` iterations. -/
def compressFrom {M : Type _} [DecidableEq M] (a : DetAut Q L) (append : M → L → M) :
    Nat → M → Q → List (M × Q) → Option (List (M × Q))
  | 0, _, _, _ => none
  | fuel + 1, label, r, out =>
    match a.singleTransition r with
    | some (l, s) =>
      compressFrom a append fuel (append label l) s (if a.isFinal r then AMap.insert out label r else out)
    | none => some (AMap.insert out label r)

/-- `compress`. `layouts/src/utils/automaton.rs` L646-683. The stack contains only the initial state. -/
def compress {M : Type _} [DecidableEq M] (fuel : Nat) (a : DetAut Q L) (default : M) (append : M → L → M) :
    Option (DetAut Q M) := do
  let row ← (a.row a.initial).foldlM (fun out e => a.compressFrom append fuel (append default e.1) e.2 out) []
  some { initial := a.initial, finals := a.finals, transitions := [(a.initial, row)] }

/-! ## Serialization -/

/-- The serialized transitions: a sequence of triples. `layouts/src/utils/automaton.rs` L699-719. -/
def serialize (t : List (Q × List (L × Q))) : List (Q × L × Q) := triples t

/-- Reading the transitions. `layouts/src/utils/automaton.rs` L743-754. -/
def deserialize (ts : List (Q × L × Q)) : List (Q × List (L × Q)) :=
  ts.foldl (fun result t => addTo result t.1 t.2.1 t.2.2) []

/-! ## Minimization -/

/-- The sources of the transitions into `block`, by label. `layouts/src/utils/automaton.rs` L451-466. -/
def sourcesByLabel (a : DetAut Q L) (block : List Q) : List (L × List Q) :=
  (triples a.transitions).foldl (fun m t =>
    if t.2.2 ∈ block then AMap.modify m t.2.1 [] (fun s => if t.1 ∈ s then s else s ++ [t.1]) else m) []

/-- Splits the block `y` by `sources`. `layouts/src/utils/automaton.rs` L470-489. Blocks are disjoint lists. -/
def splitBlock (sources : List Q) (pw : List (List Q) × List (List Q)) (y : List Q) : List (List Q) × List (List Q) :=
  let (partition, working) := pw
  let inter := y.filter fun q => decide (q ∈ sources)
  let diff := y.filter fun q => decide (q ∉ sources)
  if inter.isEmpty || diff.isEmpty then (partition, working)
  else
    let working :=
      if y ∈ working then working.filter (fun b => decide (b ≠ y)) ++ [inter, diff]
      else if inter.length ≤ diff.length then working ++ [inter] else working ++ [diff]
    (partition.filter (fun b => decide (b ≠ y)) ++ [inter, diff], working)

/-- Splits every block by `sources`. `layouts/src/utils/automaton.rs` L469-490. -/
def splitAll (sources : List Q) (pw : List (List Q) × List (List Q)) : List (List Q) × List (List Q) :=
  pw.1.foldl (splitBlock sources) pw

/-- The main loop of `minimize`. `layouts/src/utils/automaton.rs` L450-492. The order in which blocks are taken
(`pop_first`) is the order of a list. -/
def refinePartition (a : DetAut Q L) : Nat → List (List Q) → List (List Q) → Option (List (List Q))
  | _, partition, [] => some partition
  | 0, _, _ :: _ => none
  | fuel + 1, partition, block :: working =>
    let pw := (a.sourcesByLabel block).foldl (fun pw e => splitAll e.2 pw) (partition, working)
    refinePartition a fuel pw.1 pw.2

/-- `map[q]`. `layouts/src/utils/automaton.rs` L494-499. -/
def blockOf (partition : List (List Q)) (q : Q) : Option (List Q) := partition.reverse.find? fun b => decide (q ∈ b)

/-- `minimize`. `layouts/src/utils/automaton.rs` L440-509. It panics when a state is in no block. -/
def minimize (fuel : Nat) (a : DetAut Q L) (partition : List (List Q)) : Out Empty (DetAut (List Q) L) :=
  match a.refinePartition fuel partition partition with
  | none => .fuel
  | some p => do
    let initial ← Out.ofOption (blockOf p a.initial)
    (triples a.transitions).foldlM (fun (result : DetAut (List Q) L) t => do
      let source ← Out.ofOption (blockOf p t.1)
      let target ← Out.ofOption (blockOf p t.2.2)
      Out.ok (result.add source t.2.1 target)) (new initial)

end DetAut

end Verif
