import Verif.Pattern

/-!
# What a match is

A small declarative specification of basic graph pattern matching, independent of the search.
-/

namespace Verif

variable {R : Type _}

/-- Under the bindings `f`, the pattern stands for the resource `r`. -/
def Pattern.Denotes (f : Nat → Option R) (pat : Pattern R) (r : R) : Prop :=
  match pat with
  | .res r' => r = r'
  | .var x => f x = some r

/-- Under the bindings `f`, the pattern quad stands for the quad `q`. No graph means the default graph. -/
def QuadPat.Denotes (f : Nat → Option R) (pat : QuadPat R) (q : Quad R) : Prop :=
  pat.s.Denotes f q.s ∧ pat.p.Denotes f q.p ∧ pat.o.Denotes f q.o ∧
  match pat.g, q.g with
  | none, none => True
  | some pg, some g => pg.Denotes f g
  | _, _ => False

/-- The variables of a pattern. -/
def Pattern.vars : Pattern R → List Nat
  | .res _ => []
  | .var x => [x]

/-- The variables of a pattern quad. -/
def QuadPat.vars (pat : QuadPat R) : List Nat :=
  pat.s.vars ++ (pat.p.vars ++ (pat.o.vars ++ (pat.g.map Pattern.vars).getD []))

/-- The variables of a list of pattern quads. -/
def patsVars (pats : List (QuadPat R)) : List Nat := pats.flatMap QuadPat.vars

/-- `σ` is a match of `pats` in the dataset `ds`, starting from the partial substitution `σ₀`: it declares the same
variables, keeps every existing binding, sends every pattern quad onto a quad of the dataset, and binds nothing
else. -/
structure IsMatch (ds : List (Quad R)) (σ₀ : Subst R) (pats : List (QuadPat R)) (σ : Subst R) : Prop where
  length_eq : σ.length = σ₀.length
  keeps : ∀ i r, σ₀.get i = some r → σ.get i = some r
  sat : ∀ p ∈ pats, ∃ q ∈ ds, p.Denotes σ.get q
  minimal : ∀ i r, σ.get i = some r → σ₀.get i = some r ∨ i ∈ patsVars pats

/-- All the variables used are declared: the documented precondition of `Matching::new`
(`layouts/src/matching.rs` L58-59). -/
def Declared (σ : Subst R) (pats : List (QuadPat R)) : Prop := ∀ x ∈ patsVars pats, x < σ.length

end Verif
