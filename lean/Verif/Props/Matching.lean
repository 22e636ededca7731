import Verif.MatchingLemmas

/-!
# Properties of pattern matching (C01, C02, C03)

Every theorem is about the stack machine of `Verif/Matching.lean`; the specification is `IsMatch` of
`Verif/MatchingSpec.lean`.
-/

namespace Verif.Props

open Verif.Matching

variable {R : Type _} [DecidableEq R]

/-- **C01.** Iterating over a matching terminates, does not panic, and yields every match exactly once and nothing
else. -/
theorem C01_matching_sound_complete_nodup {ε} (ds : List (Quad R)) (σ : Subst R) (pats : List (QuadPat R))
    (hds : ds.Nodup) (hdecl : Declared σ pats) :
    ∃ l : List (Subst R), (collect ds (Matching.new σ pats) : Out ε _) = .ok l ∧ l.Nodup ∧
      ∀ τ, τ ∈ l ↔ IsMatch ds σ pats τ :=
  ⟨_, collect_eq_enum ds σ pats hdecl, nodup_enum ds hds pats σ hdecl, mem_enum ds pats σ hdecl⟩

/-- **C01** (termination, no precondition). Each call of the iterator returns after finitely many steps, even when
the variables are not declared or the dataset representation has duplicates. -/
theorem C01_next_terminates {ε} (ds : List (Quad R)) (st : Stack R) : (next ds st : Out ε _) ≠ .fuel :=
  next_ne_fuel ds st

/-- **C02.** `into_unique` classifies: no match, exactly one match, at least two different matches. -/
theorem C02_into_unique (ds : List (Quad R)) (σ : Subst R) (pats : List (QuadPat R))
    (hds : ds.Nodup) (hdecl : Declared σ pats) :
    (intoUnique ds (Matching.new σ pats) = .ok none ↔ ∀ τ, ¬ IsMatch ds σ pats τ) ∧
    (∀ τ, intoUnique ds (Matching.new σ pats) = .ok (some τ) ↔
      IsMatch ds σ pats τ ∧ ∀ τ', IsMatch ds σ pats τ' → τ' = τ) ∧
    (intoUnique ds (Matching.new σ pats) = .err .ambiguity ↔
      ∃ τ τ', IsMatch ds σ pats τ ∧ IsMatch ds σ pats τ' ∧ τ ≠ τ') := by
  rw [intoUnique_eq ds σ pats hdecl]
  simp only [← mem_enum ds pats σ hdecl]
  have hn := nodup_enum ds hds pats σ hdecl
  revert hn
  generalize enum ds pats σ = l
  intro hn
  match l with
  | [] => simp
  | [a] =>
    refine ⟨?_, ?_, ?_⟩
    · simp
    · intro τ
      simp only [Out.ok.injEq, Option.some.injEq, List.mem_singleton]
      constructor
      · rintro rfl; simp
      · rintro ⟨rfl, -⟩; rfl
    · simp
  | a :: b :: l =>
    have hab : a ≠ b := by
      rintro rfl
      simp at hn
    refine ⟨?_, ?_, ?_⟩
    · simp only [reduceCtorEq, false_iff, not_forall, not_not]
      exact ⟨a, by simp⟩
    · intro τ
      simp only [reduceCtorEq, false_iff, not_and, not_forall]
      intro _
      by_cases h : a = τ
      · subst h; exact ⟨b, by simp, Ne.symm hab⟩
      · exact ⟨a, by simp, h⟩
    · simp only [true_iff]
      exact ⟨a, b, by simp, by simp, hab⟩

/-- **C02.** `into_required_unique` succeeds exactly with the unique match, and fails with `Empty` exactly when there
is no match. -/
theorem C02_into_required_unique (ds : List (Quad R)) (σ : Subst R) (pats : List (QuadPat R))
    (hds : ds.Nodup) (hdecl : Declared σ pats) :
    (∀ τ, intoRequiredUnique ds (Matching.new σ pats) = .ok τ ↔
      IsMatch ds σ pats τ ∧ ∀ τ', IsMatch ds σ pats τ' → τ' = τ) ∧
    (intoRequiredUnique ds (Matching.new σ pats) = .err .empty ↔ ∀ τ, ¬ IsMatch ds σ pats τ) ∧
    (intoRequiredUnique ds (Matching.new σ pats) = .err .ambiguity ↔
      ∃ τ τ', IsMatch ds σ pats τ ∧ IsMatch ds σ pats τ' ∧ τ ≠ τ') := by
  obtain ⟨h1, h2, h3⟩ := C02_into_unique ds σ pats hds hdecl
  rw [← h1, ← h3]
  simp only [← h2]
  have := intoUnique_eq ds σ pats hdecl
  simp only [intoRequiredUnique]
  rcases h : intoUnique ds (Matching.new σ pats) with (_ | τ) | e | _ | _
  · simp
  · simp
  · cases e <;> simp
    rw [this] at h
    split at h <;> simp at h
  · rw [this] at h; split at h <;> simp at h
  · rw [this] at h; split at h <;> simp at h

/-- **C03.** The list of matches only depends, up to order, on which quads are in the dataset and which patterns are
asked for. -/
theorem C03_matches_order_independent {ε} (ds ds' : List (Quad R)) (σ : Subst R) (pats pats' : List (QuadPat R))
    (hds : ds.Nodup) (hds' : ds'.Nodup) (hdecl : Declared σ pats)
    (hset : ∀ q, q ∈ ds ↔ q ∈ ds') (hpats : ∀ p, p ∈ pats ↔ p ∈ pats') :
    ∃ l l', (collect ds (Matching.new σ pats) : Out ε _) = .ok l ∧
      (collect ds' (Matching.new σ pats') : Out ε _) = .ok l' ∧ l.Perm l' := by
  have hv : ∀ x, x ∈ patsVars pats' ↔ x ∈ patsVars pats := by
    intro x; simp [patsVars, hpats]
  have hdecl' : Declared σ pats' := fun x hx => hdecl x ((hv x).1 hx)
  refine ⟨_, _, collect_eq_enum ds σ pats hdecl, collect_eq_enum ds' σ pats' hdecl', ?_⟩
  rw [List.perm_ext_iff_of_nodup (nodup_enum ds hds pats σ hdecl) (nodup_enum ds' hds' pats' σ hdecl')]
  intro τ
  rw [mem_enum _ _ _ hdecl, mem_enum _ _ _ hdecl']
  constructor
  · intro h
    exact ⟨h.length_eq, h.keeps,
      fun p hp => let ⟨q, hq, hd⟩ := h.sat p ((hpats p).2 hp); ⟨q, (hset q).1 hq, hd⟩,
      fun i r e => (h.minimal i r e).imp_right (hv i).2⟩
  · intro h
    exact ⟨h.length_eq, h.keeps,
      fun p hp => let ⟨q, hq, hd⟩ := h.sat p ((hpats p).1 hp); ⟨q, (hset q).2 hq, hd⟩,
      fun i r e => (h.minimal i r e).imp_right (hv i).1⟩

/-- **C03.** The outcome of a unique-match query does not depend on the order of the quads or of the patterns. -/
theorem C03_unique_order_independent (ds ds' : List (Quad R)) (σ : Subst R) (pats pats' : List (QuadPat R))
    (hds : ds.Nodup) (hds' : ds'.Nodup) (hdecl : Declared σ pats)
    (hset : ∀ q, q ∈ ds ↔ q ∈ ds') (hpats : ∀ p, p ∈ pats ↔ p ∈ pats') :
    intoUnique ds (Matching.new σ pats) = intoUnique ds' (Matching.new σ pats') := by
  have hv : ∀ x, x ∈ patsVars pats' ↔ x ∈ patsVars pats := by
    intro x; simp [patsVars, hpats]
  have hdecl' : Declared σ pats' := fun x hx => hdecl x ((hv x).1 hx)
  obtain ⟨l, l', h1, h2, hp⟩ :=
    C03_matches_order_independent (ε := Empty) ds ds' σ pats pats' hds hds' hdecl hset hpats
  rw [collect_eq_enum _ _ _ hdecl, Out.ok.injEq] at h1
  rw [collect_eq_enum _ _ _ hdecl', Out.ok.injEq] at h2
  rw [intoUnique_eq _ _ _ hdecl, intoUnique_eq _ _ _ hdecl', h1, h2]
  have hlen := hp.length_eq
  match l, l' with
  | [], [] => rfl
  | [a], [b] => have := hp.singleton_eq; simp_all
  | a :: b :: l, c :: d :: l' => rfl
  | [], _ :: _ => simp at hlen
  | _ :: _, [] => simp at hlen
  | [_], _ :: _ :: _ => simp at hlen
  | _ :: _ :: _, [_] => simp at hlen

/-! ## The hypotheses are met by concrete cases -/

section Examples

/-- A small dataset: resource 0 knows 1 and 2, 1 knows 2; one quad lives in graph 9. -/
private def ds₀ : List (Quad Nat) :=
  [⟨0, 7, 1, none⟩, ⟨0, 7, 2, none⟩, ⟨1, 7, 2, none⟩, ⟨0, 7, 3, some 9⟩]

/-- `?0 7 ?1 . ?1 7 ?2`, with `?0` bound to 0. -/
private def pats₀ : List (QuadPat Nat) :=
  [⟨.var 0, .res 7, .var 1, none⟩, ⟨.var 1, .res 7, .var 2, none⟩]

private def σ₀ : Subst Nat := [some 0, none, none]

example : ds₀.Nodup ∧ Declared σ₀ pats₀ := by
  constructor
  · decide
  · unfold Declared; decide

example : (collect ds₀ (Matching.new σ₀ pats₀) : Out Empty _) = .ok [[some 0, some 1, some 2]] := by decide

/-- One match. -/
example : intoUnique ds₀ (Matching.new σ₀ pats₀) = .ok (some [some 0, some 1, some 2]) := by decide

/-- Two matches. -/
example : intoUnique ds₀ (Matching.new σ₀ (pats₀.take 1)) = .err .ambiguity := by decide

/-- A variable graph selects the named graph. -/
example : intoUnique ds₀ (Matching.new [none, none] [⟨.res 0, .res 7, .var 0, some (.var 1)⟩]) =
    .ok (some [some 3, some 9]) := by decide

/-- An undeclared variable that is reached makes the code panic: the precondition is needed. -/
example : intoUnique ds₀ (Matching.new [] pats₀) = .panic := by decide

end Examples

end Verif.Props
