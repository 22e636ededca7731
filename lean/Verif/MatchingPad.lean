import Verif.MatchingLemmas

/-! # Matching with undeclared variables

Matching panics as soon as it has to bind an undeclared variable. If it does not, declaring more variables changes
nothing but the length of the substitutions. -/

set_option linter.unusedSectionVars false
set_option linter.unusedSimpArgs false

namespace Verif

variable {R : Type _} [DecidableEq R]

theorem Subst.get_intro_eq (σ : Subst R) (k x : Nat) : (σ.intro k).get x = σ.get x := by
  simp only [Subst.get, Subst.intro]
  by_cases hx : x < σ.length
  · rw [List.getElem?_append_left hx]
  · rw [List.getElem?_append_right (by omega), List.getElem?_eq_none (l := σ) (by omega), List.getElem?_replicate]
    split <;> rename_i h <;> simp_all

/-- Declares `k` more variables in a partial result. -/
def padOut {ε} (k : Nat) (x : Out ε (Option (Subst R))) : Out ε (Option (Subst R)) :=
  x.map (·.map (·.intro k))

theorem bindComponent_pad {ε} (k : Nat) (σ : Subst R) (p : Pattern R) (v : R)
    (h : (σ.bindComponent p v : Out ε _) ≠ .panic) :
    ((σ.intro k).bindComponent p v : Out ε _) = padOut k (σ.bindComponent p v) := by
  cases p with
  | res r => rfl
  | var x =>
    unfold Subst.bindComponent at h ⊢
    simp only [Subst.set] at h ⊢
    by_cases hx : x < σ.length
    · have e1 : σ[x]? = some σ[x] := List.getElem?_eq_getElem hx
      have e2 : (σ.intro k)[x]? = some σ[x] := by
        rw [Subst.intro, List.getElem?_append_left hx, e1]
      have e3 : List.set (σ.intro k) x (some v) = Subst.intro (List.set σ x (some v)) k := by
        simp [Subst.intro, List.set_append_left _ _ hx]
      rw [e1, e2]
      simp only
      cases hv : σ[x] with
      | none => simp [padOut, Out.map, e3]
      | some o =>
        simp only
        split
        · rfl
        · simp [padOut, Out.map, e3]
    · simp [List.getElem?_eq_none (Nat.le_of_not_lt hx)] at h

theorem andThen_pad {ε} (k : Nat) {x x' : Out ε (Option (Subst R))} {f f' : Subst R → Out ε (Option (Subst R))}
    (h : Subst.andThen x f ≠ .panic) (hx : x ≠ .panic → x' = padOut k x)
    (hf : ∀ σ, f σ ≠ .panic → f' (σ.intro k) = padOut k (f σ)) :
    Subst.andThen x' f' = padOut k (Subst.andThen x f) := by
  have hxp : x ≠ .panic := by rintro rfl; exact h rfl
  rw [hx hxp]
  rcases x with (_ | σ) | e | _ | _
  · rfl
  · exact hf σ h
  · rfl
  · exact absurd rfl hxp
  · rfl

theorem withQuad_pad {ε} (k : Nat) (σ : Subst R) (pat : QuadPat R) (q : Quad R)
    (h : (σ.withQuad pat q : Out ε _) ≠ .panic) :
    ((σ.intro k).withQuad pat q : Out ε _) = padOut k (σ.withQuad pat q) := by
  unfold Subst.withQuad at h ⊢
  refine andThen_pad k h (bindComponent_pad k _ _ _) fun σ h => ?_
  refine andThen_pad k h (bindComponent_pad k _ _ _) fun σ h => ?_
  refine andThen_pad k h (bindComponent_pad k _ _ _) fun σ h => ?_
  split
  · rename_i x hx
    rw [hx] at h
    simp only at h
    cases hg : q.g with
    | none => rw [hg] at h; exact absurd rfl h
    | some g => rw [hg] at h; exact bindComponent_pad k _ _ _ h
  · rfl

namespace Matching

/-- Declares `k` more variables in every state of the stack. -/
def pad (k : Nat) (st : Stack R) : Stack R := st.map fun s => { s with subst := s.subst.intro k }

theorem weight_pad (k d : Nat) (st : Stack R) : weight d (pad k st) = weight d st := by
  unfold weight pad
  rw [List.map_map]
  rfl

theorem nextFuel_pad {ε} (ds : List (Quad R)) (k n : Nat) (st : Stack R) (h : (nextFuel ds n st : Out ε _) ≠ .panic) :
    (nextFuel ds n (pad k st) : Out ε _) =
      (nextFuel ds n st).map (·.map fun e => (Subst.intro e.1 k, pad k e.2)) := by
  induction n generalizing st with
  | zero => rfl
  | succ n ih =>
    unfold nextFuel at h ⊢
    match st with
    | [] => rfl
    | ⟨σ, some (p, []), rest⟩ :: st => exact ih st h
    | ⟨σ, none, pat :: rest⟩ :: st => exact ih (⟨σ, some (pat, candidates ds pat), rest⟩ :: st) h
    | ⟨σ, none, []⟩ :: st => rfl
    | ⟨σ, some (pat, m :: ms), rest⟩ :: st =>
      have hp : (σ.withQuad pat m : Out Empty _) ≠ .panic := by
        intro hp
        simp only [step, hp] at h
        exact h rfl
      have := withQuad_pad k σ pat m hp
      simp only [pad, List.map_cons, step] at h ⊢
      rw [this]
      rcases hw : (σ.withQuad pat m : Out Empty _) with (_ | σ') | e | _ | _
      · rw [hw] at h
        exact ih (⟨σ, some (pat, ms), rest⟩ :: st) h
      · rw [hw] at h
        exact ih (⟨σ', none, rest⟩ :: ⟨σ, some (pat, ms), rest⟩ :: st) h
      · exact e.elim
      · exact absurd hw hp
      · rw [hw] at h
        exact absurd rfl h

theorem next_pad {ε} (ds : List (Quad R)) (k : Nat) (st : Stack R) (h : (next ds st : Out ε _) ≠ .panic) :
    (next ds (pad k st) : Out ε _) = (next ds st).map (·.map fun e => (Subst.intro e.1 k, pad k e.2)) := by
  unfold next at h ⊢
  rw [weight_pad]
  exact nextFuel_pad ds k _ st h

theorem intoUnique_pad (ds : List (Quad R)) (k : Nat) (st : Stack R) (h : intoUnique ds st ≠ .panic) :
    intoUnique ds (pad k st) = padOut k (intoUnique ds st) := by
  unfold intoUnique at h ⊢
  have h1 : (next ds st : Out Error _) ≠ .panic := by
    intro hp
    rw [hp] at h
    exact h rfl
  rw [next_pad ds k st h1]
  rcases hn : (next ds st : Out Error _) with (_ | ⟨σ, st'⟩) | e | _ | _
  · rfl
  · rw [hn] at h
    simp only [Out.bind_ok] at h
    simp only [Out.map, Option.map_some, Out.bind_ok]
    have h2 : (next ds st' : Out Error _) ≠ .panic := by
      intro hp
      rw [hp] at h
      exact h rfl
    rw [next_pad ds k st' h2]
    rcases (next ds st' : Out Error _) with (_ | e) | e | _ | _ <;> rfl
  · rfl
  · rfl
  · rfl

end Matching

end Verif
