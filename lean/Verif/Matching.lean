import Verif.Pattern

/-!
# Pattern matching

Models `layouts/src/matching.rs` (and its verbatim copy `generators/rust/treeldr-rs/src/de/matching.rs`): the
iterator is a stack machine, modelled as such.

A dataset is a list of quads. The dependency function `quad_pattern_matching` enumerates the quads of the dataset
compatible with a canonical pattern; `candidates` models it (see the trusted base in `DESIGN.md`).
-/

namespace Verif

variable {R : Type _} [DecidableEq R]

/-- Does the resource `r` agree with a pattern component, when only resources are constrained? -/
def Pattern.admits (pat : Pattern R) (r : R) : Bool :=
  match pat with
  | .res r' => r' == r
  | .var _ => true

/-- Are two components of a quad equal whenever the pattern uses the same variable for both?
(`CanonicalQuadPattern` records repeated variables as `SameAs…`.) -/
def sameVar (p₁ p₂ : Pattern R) (r₁ r₂ : R) : Bool :=
  match p₁, p₂ with
  | .var x, .var y => x != y || r₁ == r₂
  | _, _ => true

/-- Is the quad selected by `quad_pattern_matching(quad_matching_pattern(pattern))`?
`layouts/src/matching.rs` L149-156 and `rdf_types::pattern::CanonicalQuadPattern::from_pattern`.
No graph in the pattern selects the default graph; a graph pattern selects named graphs only. -/
def QuadPat.admits (pat : QuadPat R) (q : Quad R) : Bool :=
  pat.s.admits q.s && pat.p.admits q.p && pat.o.admits q.o &&
  sameVar pat.s pat.p q.s q.p && sameVar pat.s pat.o q.s q.o && sameVar pat.p pat.o q.p q.o &&
  match pat.g, q.g with
  | none, none => true
  | some pg, some g =>
    pg.admits g && sameVar pat.s pg q.s g && sameVar pat.p pg q.p g && sameVar pat.o pg q.o g
  | _, _ => false

/-- `dataset.quad_pattern_matching(quad_matching_pattern(pattern))`, `layouts/src/matching.rs` L132-134. -/
def candidates (ds : List (Quad R)) (pat : QuadPat R) : List (Quad R) :=
  ds.filter (QuadPat.admits pat)

namespace Matching

/-- `State { substitution, quad_state, rest }` with `QuadState { pattern, quad_matching }`.
`layouts/src/matching.rs` L31-46. The two iterators (`quad_matching`, `rest`) are the lists of the items they have
yet to produce. -/
structure State (R : Type _) where
  subst : Subst R
  quadState : Option (QuadPat R × List (Quad R))
  rest : List (QuadPat R)

/-- The working stack; the head of the list is the *last* element of the `Vec`. `layouts/src/matching.rs` L28. -/
abbrev Stack (R : Type _) := List (State R)

/-- `Matching::new`. `layouts/src/matching.rs` L62-71. -/
def new (σ : Subst R) (pats : List (QuadPat R)) : Stack R := [⟨σ, none, pats⟩]

/-- What one iteration of the `loop` in `next` does. -/
inductive Step (R : Type _) where
  /-- go on looping with this stack -/
  | continue (st : Stack R)
  /-- `break Some(substitution)`, leaving this stack -/
  | yield (σ : Subst R) (st : Stack R)
  /-- `break None` -/
  | done
  /-- `with_quad` panicked -/
  | panic

/-- One iteration of the `loop` in `Matching::next`. `layouts/src/matching.rs` L107-145. -/
def step (ds : List (Quad R)) : Stack R → Step R
  | [] => .done
  | ⟨_, some (_, []), _⟩ :: st => .continue st
  | ⟨σ, some (pat, m :: ms), rest⟩ :: st =>
    match (σ.withQuad pat m : Out Empty _) with
    | .ok (some σ') => .continue (⟨σ', none, rest⟩ :: ⟨σ, some (pat, ms), rest⟩ :: st)
    | .ok none => .continue (⟨σ, some (pat, ms), rest⟩ :: st)
    | _ => .panic
  | ⟨σ, none, pat :: rest⟩ :: st => .continue (⟨σ, some (pat, candidates ds pat), rest⟩ :: st)
  | ⟨σ, none, []⟩ :: st => .yield σ st

/-- Work left for a state without quad state and `n` patterns to go, over a dataset of size `d`. -/
def weightNone (d : Nat) : Nat → Nat
  | 0 => 1
  | n + 1 => 2 + d * (1 + weightNone d n)

/-- Work left for a state. -/
def State.weight (d : Nat) (s : State R) : Nat :=
  match s.quadState with
  | none => weightNone d s.rest.length
  | some (_, ms) => 1 + ms.length * (1 + weightNone d s.rest.length)

/-- Work left for a stack: an upper bound on the number of loop iterations. -/
def weight (d : Nat) (st : Stack R) : Nat := (st.map (State.weight d)).sum

/-- `Matching::next` with a bound on the number of loop iterations. -/
def nextFuel {ε} (ds : List (Quad R)) : Nat → Stack R → Out ε (Option (Subst R × Stack R))
  | 0, _ => .fuel
  | n + 1, st =>
    match step ds st with
    | .continue st' => nextFuel ds n st'
    | .yield σ st' => .ok (some (σ, st'))
    | .done => .ok none
    | .panic => .panic

/-- `Matching::next`. `layouts/src/matching.rs` L106-147. The number of loop iterations is bounded by the weight of
the stack; `nextFuel_ne_fuel` proves that the bound is never reached. -/
def next {ε} (ds : List (Quad R)) (st : Stack R) : Out ε (Option (Subst R × Stack R)) :=
  nextFuel ds (weight ds.length st + 1) st

/-- Iterating `next` until it returns `None`, collecting the substitutions (`for s in matching`). -/
def collectFuel {ε} (ds : List (Quad R)) : Nat → Stack R → Out ε (List (Subst R))
  | 0, _ => .fuel
  | n + 1, st =>
    (next ds st).bind fun
      | none => .ok []
      | some (σ, st') => (collectFuel ds n st').map (σ :: ·)

/-- All the items of the iterator, in order, as consumed by a `for` loop. -/
def collect {ε} (ds : List (Quad R)) (st : Stack R) : Out ε (List (Subst R)) :=
  collectFuel ds (weight ds.length st + 1) st

/-- `matching::Error`. `layouts/src/matching.rs` L6-14. -/
inductive Error where
  | ambiguity
  | empty
  deriving Repr, DecidableEq

/-- `Matching::into_unique`. `layouts/src/matching.rs` L80-91. -/
def intoUnique (ds : List (Quad R)) (st : Stack R) : Out Error (Option (Subst R)) :=
  (next ds st).bind fun
    | some (σ, st') =>
      (next ds st').bind fun
        | some _ => .err .ambiguity
        | none => .ok (some σ)
    | none => .ok none

/-- `Matching::into_required_unique`. `layouts/src/matching.rs` L93-95. -/
def intoRequiredUnique (ds : List (Quad R)) (st : Stack R) : Out Error (Subst R) :=
  (intoUnique ds st).bind fun
    | some σ => .ok σ
    | none => .err .empty

end Matching

end Verif
