import Mathlib.Data.List.Forall2

/-!
# Outcomes

The Rust code reports failures in three different ways: `Result::Err`, a panic (`unwrap`, `todo!`, index out of
bounds), or by not terminating. The model keeps these apart.
-/

namespace Verif

/-- Outcome of a modelled function.
* `ok a`: the function returns `Ok(a)` (or just `a`);
* `err e`: it returns `Err(e)`;
* `panic`: it panics;
* `fuel`: the bound on the recursion depth given to the model was too small (the real code would go on). -/
inductive Out (ε : Type _) (α : Type _) where
  | ok (a : α)
  | err (e : ε)
  | panic
  | fuel
  deriving Repr, DecidableEq, Inhabited

namespace Out

variable {ε : Type _} {α β γ : Type _}

/-- The `?` operator: stops at the first non-`ok` outcome. -/
def bind : Out ε α → (α → Out ε β) → Out ε β
  | ok a, f => f a
  | err e, _ => err e
  | panic, _ => panic
  | fuel, _ => fuel

/-- Applies a function to the `ok` outcome. -/
def map (f : α → β) : Out ε α → Out ε β
  | ok a => ok (f a)
  | err e => err e
  | panic => panic
  | fuel => fuel

instance : Monad (Out ε) where
  pure := ok
  bind := bind

@[simp] theorem pure_eq (a : α) : (pure a : Out ε α) = ok a := rfl
@[simp] theorem bind_eq (x : Out ε α) (f : α → Out ε β) : (x >>= f) = x.bind f := rfl
@[simp] theorem bind_ok (a : α) (f : α → Out ε β) : (ok a : Out ε α).bind f = f a := rfl
@[simp] theorem bind_err (e : ε) (f : α → Out ε β) : (err e : Out ε α).bind f = err e := rfl
@[simp] theorem bind_panic (f : α → Out ε β) : (panic : Out ε α).bind f = panic := rfl
@[simp] theorem bind_fuel (f : α → Out ε β) : (fuel : Out ε α).bind f = fuel := rfl

theorem bind_eq_ok {x : Out ε α} {f : α → Out ε β} {b : β} :
    x.bind f = ok b ↔ ∃ a, x = ok a ∧ f a = ok b := by
  cases x <;> simp

/-- `Option::unwrap` / indexing: `None` is a panic. -/
def ofOption : Option α → Out ε α
  | some a => ok a
  | none => panic

@[simp] theorem ofOption_some (a : α) : (ofOption (some a) : Out ε α) = ok a := rfl
@[simp] theorem ofOption_none : (ofOption (none : Option α) : Out ε α) = panic := rfl

theorem ofOption_eq_ok {o : Option α} {a : α} : (ofOption o : Out ε α) = ok a ↔ o = some a := by
  cases o <;> simp [ofOption]

/-- True for the `ok` outcome. -/
def isOk : Out ε α → Bool
  | ok _ => true
  | _ => false

end Out

end Verif

namespace Verif.Out

variable {ε ε' : Type _} {α β : Type _}

/-- `Result::map_err`. -/
def mapErr (f : ε → ε') : Out ε α → Out ε' α
  | ok a => ok a
  | err e => err (f e)
  | panic => panic
  | fuel => fuel

/-- Applies a fallible function to each element in order, stopping at the first failure. -/
def mapM' (f : α → Out ε β) : List α → Out ε (List β)
  | [] => ok []
  | a :: l => (f a).bind fun b => (mapM' f l).bind fun bs => ok (b :: bs)

theorem mapErr_eq_ok {f : ε → ε'} {x : Out ε α} {a : α} : x.mapErr f = ok a ↔ x = ok a := by
  cases x <;> simp [mapErr]

theorem mapErr_eq_fuel {f : ε → ε'} {x : Out ε α} : x.mapErr f = fuel ↔ x = fuel := by
  cases x <;> simp [mapErr]

theorem mapErr_eq_panic {f : ε → ε'} {x : Out ε α} : x.mapErr f = panic ↔ x = panic := by
  cases x <;> simp [mapErr]

theorem mapM'_eq_ok {f : α → Out ε β} {l : List α} {bs : List β} :
    mapM' f l = ok bs ↔ List.Forall₂ (fun a b => f a = ok b) l bs := by
  induction l generalizing bs with
  | nil => cases bs <;> simp [mapM']
  | cons a l ih =>
    simp only [mapM', bind_eq_ok]
    constructor
    · rintro ⟨b, hb, bs', hbs', h⟩
      simp only [ok.injEq] at h
      subst h
      exact .cons hb (ih.1 hbs')
    · intro h
      cases h with
      | cons hb hbs => exact ⟨_, hb, _, ih.2 hbs, rfl⟩

end Verif.Out

namespace Verif

/-- Insertion into a sorted list. -/
def insertBy {α : Type _} (le : α → α → Bool) (a : α) : List α → List α
  | [] => [a]
  | b :: l => if le a b then a :: b :: l else b :: insertBy le a l

/-- `slice::sort`: a stable sort. -/
def sortBy {α : Type _} (le : α → α → Bool) : List α → List α
  | [] => []
  | a :: l => insertBy le a (sortBy le l)

theorem insertBy_perm {α : Type _} (le : α → α → Bool) (a : α) (l : List α) : (insertBy le a l).Perm (a :: l) := by
  induction l with
  | nil => exact .refl _
  | cons b l ih =>
    unfold insertBy
    split
    · exact .refl _
    · exact (ih.cons b).trans (.swap a b l)

theorem sortBy_perm {α : Type _} (le : α → α → Bool) (l : List α) : (sortBy le l).Perm l := by
  induction l with
  | nil => exact .refl _
  | cons a l ih => exact (insertBy_perm le a _).trans (ih.cons a)

theorem pairwise_sortBy {α : Type _} {le : α → α → Bool} (total : ∀ a b, le a b = true ∨ le b a = true)
    (trans : ∀ a b c, le a b = true → le b c = true → le a c = true) (l : List α) :
    (sortBy le l).Pairwise (fun a b => le a b = true) := by
  have key : ∀ (a : α) (l : List α), l.Pairwise (fun a b => le a b = true) →
      (insertBy le a l).Pairwise (fun a b => le a b = true) := by
    intro a l
    induction l with
    | nil => intro _; simp [insertBy]
    | cons b l ih =>
      intro h
      rw [List.pairwise_cons] at h
      unfold insertBy
      split
      · rename_i hab
        refine List.pairwise_cons.2 ⟨?_, List.pairwise_cons.2 h⟩
        intro c hc
        rcases List.mem_cons.1 hc with rfl | hc
        · exact hab
        · exact trans _ _ _ hab (h.1 c hc)
      · rename_i hab
        refine List.pairwise_cons.2 ⟨?_, ih h.2⟩
        intro c hc
        rcases List.mem_cons.1 ((insertBy_perm le a l).mem_iff.1 hc) with rfl | hc
        · exact (total c b).resolve_left hab
        · exact h.1 c hc
  induction l with
  | nil => exact .nil
  | cons a l ih => exact key a _ ih

end Verif
