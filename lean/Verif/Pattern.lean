import Verif.Basic

/-!
# Patterns, quads and substitutions

Models `layouts/src/pattern.rs` and `layouts/src/utils/mod.rs` (and their copies in the generated-code runtime,
`generators/rust/treeldr-rs/src/pattern.rs`). Variables (`u32`) are `Nat`.
-/

namespace Verif

/-- `Pattern<R>`: a resource or a variable. `layouts/src/pattern.rs` L12-18. -/
inductive Pattern (R : Type _) where
  | res (r : R)
  | var (x : Nat)
  deriving Repr, DecidableEq

/-- An RDF quad: subject, predicate, object, and optional graph (`rdf_types::Quad`). -/
structure Quad (R : Type _) where
  s : R
  p : R
  o : R
  g : Option R
  deriving Repr, DecidableEq

/-- A quad of patterns: `Quad<Pattern<R>>`, `layouts/src/pattern.rs` L4 (`PatternRefQuad`). -/
abbrev QuadPat (R : Type _) := Quad (Pattern R)

/-- `Substitution<R>(Vec<Option<R>>)`. `layouts/src/pattern.rs` L65. -/
abbrev Subst (R : Type _) := List (Option R)

namespace Subst

variable {R : Type _}

/-- `Substitution::from_inputs`. `layouts/src/pattern.rs` L77-82. -/
def fromInputs (inputs : List R) : Subst R := inputs.map some

/-- `Substitution::get`: the resource bound to a variable, if any. `layouts/src/pattern.rs` L95-97. -/
def get (σ : Subst R) (x : Nat) : Option R :=
  match σ[x]? with
  | some v => v
  | none => none

/-- `Substitution::intro`: declares `count` more variables. `layouts/src/pattern.rs` L101-105.
The returned index is the old length, given separately in the model. -/
def intro (σ : Subst R) (count : Nat) : Subst R := σ ++ List.replicate count none

/-- `Substitution::push`: declares one more variable with a binding. `layouts/src/pattern.rs` L111-115. -/
def push (σ : Subst R) (v : Option R) : Subst R := σ ++ [v]

/-- `Substitution::set`: binds `x`, returns the previous binding, panics if `x` is undeclared.
`layouts/src/pattern.rs` L126-128. -/
def set {ε} (σ : Subst R) (x : Nat) (v : Option R) : Out ε (Option R × Subst R) :=
  match σ[x]? with
  | some old => .ok (old, List.set σ x v)
  | none => .panic

end Subst

variable {R : Type _} [DecidableEq R]

/-- One component of `with_quad`: `if let Pattern::Var(x) = pattern { if let Some(old) = result.set(x, Some(v))
{ if old != v { return None } } }`. `layouts/src/pattern.rs` L153-175. `ok none` is the early `return None`. -/
def Subst.bindComponent {ε} (σ : Subst R) (pat : Pattern R) (v : R) : Out ε (Option (Subst R)) :=
  match pat with
  | .res _ => .ok (some σ)
  | .var x =>
    match σ.set x (some v) with
    | .ok (some old, σ') => if old ≠ v then .ok none else .ok (some σ')
    | .ok (none, σ') => .ok (some σ')
    | .err e => .err e
    | .panic => .panic
    | .fuel => .fuel

/-- The early return of `with_quad`: continue only if no mismatch was found so far. -/
def Subst.andThen {ε} (x : Out ε (Option (Subst R))) (f : Subst R → Out ε (Option (Subst R))) :
    Out ε (Option (Subst R)) :=
  match x with
  | .ok (some σ) => f σ
  | .ok none => .ok none
  | .err e => .err e
  | .panic => .panic
  | .fuel => .fuel

/-- `Substitution::with_quad`. `layouts/src/pattern.rs` L142-187. Resource components are *not* compared here,
exactly as in the code. The `unwrap` of the quad's graph is a panic. -/
def Subst.withQuad {ε} (σ : Subst R) (pat : QuadPat R) (q : Quad R) : Out ε (Option (Subst R)) :=
  andThen (σ.bindComponent pat.s q.s) fun σ =>
  andThen (σ.bindComponent pat.p q.p) fun σ =>
  andThen (σ.bindComponent pat.o q.o) fun σ =>
    match pat.g with
    | some (.var x) =>
      match q.g with
      | some g => σ.bindComponent (.var x) g
      | none => .panic
    | _ => .ok (some σ)

/-- `Pattern::apply`. `layouts/src/pattern.rs` L21-32. -/
def Pattern.apply (pat : Pattern R) (σ : Subst R) : Pattern R :=
  match pat with
  | .res r => .res r
  | .var x =>
    match σ.get x with
    | some r => .res r
    | none => .var x

/-- `Pattern::into_resource`. `layouts/src/pattern.rs` L41-46. -/
def Pattern.intoResource (pat : Pattern R) : Option R :=
  match pat with
  | .res r => some r
  | .var _ => none

/-- `pattern.apply(&substitution).into_resource()`, as used everywhere in `distill/hy`. -/
def Pattern.value (pat : Pattern R) (σ : Subst R) : Option R := (pat.apply σ).intoResource

/-- `QuadsExt::with_default_graph`: pattern quads without graph are placed in the current graph.
`layouts/src/utils/mod.rs` L24-62. -/
def withDefaultGraph (pats : List (QuadPat R)) (graph : Option R) : List (QuadPat R) :=
  pats.map fun q => { q with g := q.g.or (graph.map Pattern.res) }

end Verif
