import Verif.RenameSpec
import Verif.MatchingLemmas

/-! # Matching in a renamed and enriched dataset -/

set_option linter.unusedSectionVars false
set_option linter.unusedSimpArgs false

namespace Verif

variable {R : Type _} [DecidableEq R]

/-- The pattern with its constant renamed. -/
def Pattern.rename (f : R → R) : Pattern R → Pattern R
  | .res r => .res (f r)
  | .var x => .var x

/-- The pattern with its constants renamed. -/
def QuadPat.rename (f : R → R) (q : QuadPat R) : QuadPat R := Quad.map (Pattern.rename f) q

/-- The substitution with its resources renamed. -/
def Subst.rename (f : R → R) (σ : Subst R) : Subst R := σ.map (Option.map f)

/-- All the values are in `P`. -/
def Subst.Within (P : R → Prop) (σ : Subst R) : Prop := ∀ x r, σ.get x = some r → P r

/-- The pattern's constant is in `P`. -/
def Pattern.Within (P : R → Prop) (pat : Pattern R) : Prop := ∀ r, pat = .res r → P r

/-- The pattern's constants are in `P`. -/
def QuadPat.Within (P : R → Prop) (q : QuadPat R) : Prop :=
  q.s.Within P ∧ q.p.Within P ∧ q.o.Within P ∧ ∀ p, q.g = some p → p.Within P

theorem Subst.get_rename (f : R → R) (σ : Subst R) (x : Nat) : (σ.rename f).get x = (σ.get x).map f := by
  simp only [Subst.get, Subst.rename, List.getElem?_map]
  cases σ[x]? <;> rfl

@[simp] theorem Subst.length_rename (f : R → R) (σ : Subst R) : (σ.rename f).length = σ.length := by simp [Subst.rename]

theorem Subst.rename_intro (f : R → R) (σ : Subst R) (k : Nat) : (σ.intro k).rename f = (σ.rename f).intro k := by
  simp [Subst.rename, Subst.intro]

theorem Subst.rename_push (f : R → R) (σ : Subst R) (r : R) :
    Subst.rename f (Subst.push σ (some r)) = Subst.push (σ.rename f) (some (f r)) := by
  simp [Subst.rename, Subst.push]

theorem Subst.rename_fromInputs (f : R → R) (l : List R) :
    Subst.rename f (Subst.fromInputs l) = Subst.fromInputs (l.map f) := by
  simp [Subst.rename, Subst.fromInputs]

theorem Pattern.vars_rename (f : R → R) (p : Pattern R) : (p.rename f).vars = p.vars := by
  cases p <;> rfl

variable {f : R → R} {P : R → Prop}

/-- `f` is injective on `P`. -/
def InjOn (f : R → R) (P : R → Prop) : Prop := ∀ r r', P r → P r' → f r = f r' → r = r'

/-- What binding a component does. -/
structure Grows (Q : R → Prop) (X : List Nat) (σ τ : Subst R) : Prop where
  len : τ.length = σ.length
  values : ∀ i r, τ.get i = some r → σ.get i = some r ∨ Q r
  keeps : ∀ i, σ.get i ≠ none → τ.get i ≠ none
  binds : ∀ i ∈ X, τ.get i ≠ none

theorem Grows.trans {Q : R → Prop} {X Y : List Nat} {σ τ υ : Subst R} (h : Grows Q X σ τ) (h' : Grows Q Y τ υ) :
    Grows Q (X ++ Y) σ υ where
  len := h'.len.trans h.len
  values i r e := by
    rcases h'.values i r e with e | e
    · exact h.values i r e
    · exact .inr e
  keeps i e := h'.keeps i (h.keeps i e)
  binds i hi := by
    rcases List.mem_append.1 hi with hi | hi
    · exact h'.keeps i (h.binds i hi)
    · exact h'.binds i hi

theorem Grows.refl {Q : R → Prop} (σ : Subst R) : Grows Q [] σ σ :=
  ⟨rfl, fun _ _ h => .inl h, fun _ h => h, by simp⟩

theorem Grows.within {Q : R → Prop} {X : List Nat} {σ τ : Subst R} (h : Grows Q X σ τ) (hσ : σ.Within P)
    (hQ : ∀ r, Q r → P r) : τ.Within P := by
  intro x r e
  rcases h.values x r e with e | e
  · exact hσ x r e
  · exact hQ r e

theorem bindComponent_grows {ε} {σ τ : Subst R} {pat : Pattern R} {v : R} {Q : R → Prop} (hv : Q v)
    (h : (σ.bindComponent pat v : Out ε _) = .ok (some τ)) : Grows Q pat.vars σ τ := by
  cases pat with
  | res r =>
    simp only [Subst.bindComponent, Out.ok.injEq, Option.some.injEq] at h
    exact h ▸ Grows.refl σ
  | var x =>
    have key : x < σ.length → Grows Q [x] σ (List.set σ x (some v)) := by
      intro hx
      refine ⟨by simp, ?_, ?_, ?_⟩
      · intro i r e
        rw [Subst.get_set hx] at e
        split at e
        · injection e with e; exact .inr (e ▸ hv)
        · exact .inl e
      · intro i e
        rw [Subst.get_set hx]
        split
        · simp
        · exact e
      · simp [Subst.get_set hx]
    by_cases hx : x < σ.length
    · simp only [Subst.bindComponent, Subst.set, List.getElem?_eq_getElem hx] at h
      cases hold : σ[x] with
      | none =>
        simp only [hold, Out.ok.injEq, Option.some.injEq] at h
        exact h ▸ key hx
      | some old =>
        simp only [hold] at h
        split at h
        · simp at h
        · simp only [Out.ok.injEq, Option.some.injEq] at h
          exact h ▸ key hx
    · simp [Subst.bindComponent, Subst.set, List.getElem?_eq_none (Nat.le_of_not_lt hx)] at h

theorem bindComponent_rename {ε} (hf : InjOn f P) (σ : Subst R) (hσ : σ.Within P) (pat : Pattern R) (v : R) (hv : P v) :
    ((σ.rename f).bindComponent (pat.rename f) (f v) : Out ε _) =
      (σ.bindComponent pat v : Out ε _).map (Option.map (Subst.rename f)) := by
  cases pat with
  | res r => rfl
  | var x =>
    by_cases hx : x < σ.length
    · simp only [Subst.bindComponent, Subst.set, Pattern.rename, List.getElem?_eq_getElem hx,
        List.getElem?_eq_getElem (show x < (σ.rename f).length by simpa using hx)]
      have e : (σ.rename f)[x]'(by simpa using hx) = σ[x].map f := by simp [Subst.rename]
      have es : List.set (σ.rename f) x (some (f v)) = Subst.rename f (List.set σ x (some v)) := by
        simp [Subst.rename, List.map_set]
      rw [e, es]
      cases hold : σ[x] with
      | none => rfl
      | some old =>
        simp only [Option.map_some]
        have hold' : P old := hσ x old (by simp [Subst.get, hx, hold])
        by_cases hov : old = v
        · simp [hov, Out.map]
        · have : f old ≠ f v := fun h => hov (hf _ _ hold' hv h)
          simp [hov, this, Out.map]
    · simp [Subst.bindComponent, Subst.set, Pattern.rename, List.getElem?_eq_none (Nat.le_of_not_lt hx),
        List.getElem?_eq_none (show (σ.rename f).length ≤ x by simpa using Nat.le_of_not_lt hx), Out.map]

theorem andThen_rename {ε} {x : Out ε (Option (Subst R))} {k k' : Subst R → Out ε (Option (Subst R))}
    (h : ∀ σ, x = .ok (some σ) → k' (σ.rename f) = (k σ).map (Option.map (Subst.rename f))) :
    Subst.andThen (x.map (Option.map (Subst.rename f))) k' = (Subst.andThen x k).map (Option.map (Subst.rename f)) := by
  match x with
  | .ok (some σ) => exact h σ rfl
  | .ok none => rfl
  | .err e => rfl
  | .panic => rfl
  | .fuel => rfl

theorem andThen_some {ε} {x : Out ε (Option (Subst R))} {k : Subst R → Out ε (Option (Subst R))} {τ : Subst R}
    (h : Subst.andThen x k = .ok (some τ)) : ∃ σ, x = .ok (some σ) ∧ k σ = .ok (some τ) := by
  match x, h with
  | .ok (some σ), h => exact ⟨σ, rfl, h⟩

theorem withQuad_grows {ε} {σ τ : Subst R} {pat : QuadPat R} {q : Quad R}
    (h : (σ.withQuad pat q : Out ε _) = .ok (some τ)) : Grows q.Has pat.vars σ τ := by
  obtain ⟨σ₁, h₁, h⟩ := andThen_some h
  obtain ⟨σ₂, h₂, h⟩ := andThen_some h
  obtain ⟨σ₃, h₃, h⟩ := andThen_some h
  refine (bindComponent_grows (.inl rfl) h₁).trans ((bindComponent_grows (.inr (.inl rfl)) h₂).trans
    ((bindComponent_grows (.inr (.inr (.inl rfl))) h₃).trans ?_))
  match hg : pat.g, h with
  | none, h =>
    simp only [Out.ok.injEq, Option.some.injEq] at h
    exact h ▸ Grows.refl _
  | some (.res r), h =>
    simp only [Out.ok.injEq, Option.some.injEq] at h
    exact h ▸ Grows.refl _
  | some (.var x), h =>
    match hq : q.g, h with
    | some g, h => exact bindComponent_grows (.inr (.inr (.inr hq))) h

theorem withQuad_rename {ε} (hf : InjOn f P) (σ : Subst R) (hσ : σ.Within P) (pat : QuadPat R) (q : Quad R)
    (hq : ∀ r, q.Has r → P r) :
    ((σ.rename f).withQuad (pat.rename f) (q.map f) : Out ε _) =
      (σ.withQuad pat q : Out ε _).map (Option.map (Subst.rename f)) := by
  unfold Subst.withQuad
  simp only [QuadPat.rename, Quad.map]
  rw [bindComponent_rename hf σ hσ _ _ (hq _ (.inl rfl))]
  refine andThen_rename fun σ₁ h₁ => ?_
  have w₁ := (bindComponent_grows (Q := q.Has) (.inl rfl) h₁).within hσ hq
  rw [bindComponent_rename hf σ₁ w₁ _ _ (hq _ (.inr (.inl rfl)))]
  refine andThen_rename fun σ₂ h₂ => ?_
  have w₂ := (bindComponent_grows (Q := q.Has) (.inr (.inl rfl)) h₂).within w₁ hq
  rw [bindComponent_rename hf σ₂ w₂ _ _ (hq _ (.inr (.inr (.inl rfl))))]
  refine andThen_rename fun σ₃ h₃ => ?_
  have w₃ := (bindComponent_grows (Q := q.Has) (.inr (.inr (.inl rfl))) h₃).within w₂ hq
  match hg : pat.g with
  | none => rfl
  | some (.res r) => rfl
  | some (.var x) =>
    match hqg : q.g with
    | none => rfl
    | some g => exact bindComponent_rename hf σ₃ w₃ (.var x) g (hq _ (.inr (.inr (.inr hqg))))

theorem admits_rename (hf : InjOn f P) (pat : QuadPat R) (hp : pat.Within P) (q : Quad R) (hq : ∀ r, q.Has r → P r) :
    (pat.rename f).admits (q.map f) = pat.admits q := by
  have ha : ∀ (p : Pattern R) (r : R), p.Within P → P r → (p.rename f).admits (f r) = p.admits r := by
    intro p r hp hr
    cases p with
    | var x => rfl
    | res r' =>
      simp only [Pattern.rename, Pattern.admits]
      by_cases h : r' = r
      · simp [h]
      · have : f r' ≠ f r := fun e => h (hf _ _ (hp r' rfl) hr e)
        simp [h, this]
  have hs : ∀ (p p' : Pattern R) (r r' : R), P r → P r' → sameVar (p.rename f) (p'.rename f) (f r) (f r') = sameVar p p' r r' := by
    intro p p' r r' hr hr'
    cases p <;> cases p' <;> try rfl
    simp only [Pattern.rename, sameVar]
    by_cases h : r = r'
    · simp [h]
    · have : f r ≠ f r' := fun e => h (hf _ _ hr hr' e)
      rw [beq_false_of_ne h, beq_false_of_ne this]
  have h1 := hq q.s (.inl rfl)
  have h2 := hq q.p (.inr (.inl rfl))
  have h3 := hq q.o (.inr (.inr (.inl rfl)))
  obtain ⟨hp1, hp2, hp3, hp4⟩ := hp
  unfold QuadPat.admits
  simp only [QuadPat.rename, Quad.map, ha _ _ hp1 h1, ha _ _ hp2 h2, ha _ _ hp3 h3, hs _ _ _ _ h1 h2, hs _ _ _ _ h1 h3,
    hs _ _ _ _ h2 h3]
  match hg : pat.g, hqg : q.g with
  | none, none => rfl
  | none, some g => rfl
  | some p, none => rfl
  | some p, some g =>
    have h4 := hq g (.inr (.inr (.inr hqg)))
    simp only [Option.map_some, ha _ _ (hp4 p hg) h4, hs _ _ _ _ h1 h4, hs _ _ _ _ h2 h4, hs _ _ _ _ h3 h4]

namespace Matching

/-- The quads of `D` are of no use for the patterns in the renamed dataset: they are no candidates, or do not agree with the
substitution. -/
def Useless (f : R → R) (D : Quad R → Prop) (ds : List (Quad R)) : Subst R → List (QuadPat R) → Prop
  | _, [] => True
  | σ, pat :: rest =>
    (∀ e, D e → (pat.rename f).admits e = false ∨
      ((σ.rename f).withQuad (pat.rename f) e : Out Empty _) = .ok none) ∧
    ∀ q ∈ ds, ∀ σ', (σ.withQuad pat q : Out Empty _) = .ok (some σ') → Useless f D ds σ' rest

/-- The candidates on both sides. -/
inductive Thin (f : R → R) (σ : Subst R) (pat : QuadPat R) : List (Quad R) → List (Quad R) → Prop
  | nil : Thin f σ pat [] []
  | live (q : Quad R) {l l'} : Thin f σ pat l l' → Thin f σ pat (q :: l) (q.map f :: l')
  | dead {e : Quad R} {l l'} : ((σ.rename f).withQuad (pat.rename f) e : Out Empty _) = .ok none → Thin f σ pat l l' →
      Thin f σ pat l (e :: l')

/-- The states on both sides. -/
structure StateRel (f : R → R) (P : R → Prop) (D : Quad R → Prop) (ds : List (Quad R)) (s s' : State R) : Prop where
  within : s.subst.Within P
  pats : ∀ q ∈ s.rest, q.Within P
  subst : s'.subst = s.subst.rename f
  rest : s'.rest = s.rest.map (QuadPat.rename f)
  state : (s.quadState = none ∧ s'.quadState = none ∧ Useless f D ds s.subst s.rest) ∨
    ∃ pat ms ms', s.quadState = some (pat, ms) ∧ s'.quadState = some (pat.rename f, ms') ∧ Thin f s.subst pat ms ms' ∧
      (∀ q ∈ ms, q ∈ ds) ∧
      ∀ q ∈ ms, ∀ σ', (s.subst.withQuad pat q : Out Empty _) = .ok (some σ') → Useless f D ds σ' s.rest

/-- The results on both sides. -/
inductive NextRel (f : R → R) (P : R → Prop) (D : Quad R → Prop) (ds : List (Quad R)) {ε : Type _} :
    Out ε (Option (Subst R × Stack R)) → Out ε (Option (Subst R × Stack R)) → Prop
  | none : NextRel f P D ds (.ok none) (.ok none)
  | some {σ : Subst R} {st st' : Stack R} : σ.Within P → List.Forall₂ (StateRel f P D ds) st st' →
      NextRel f P D ds (.ok (some (σ, st))) (.ok (some (σ.rename f, st')))
  | panic : NextRel f P D ds .panic .panic

variable {D : Quad R → Prop} {ds ds' : List (Quad R)}

theorem thin_candidates (hf : InjOn f P) (hds : Enriched f D ds ds') (hq : ∀ q ∈ ds, ∀ r, q.Has r → P r)
    (σ : Subst R) (pat : QuadPat R) (hp : pat.Within P)
    (hu : ∀ e, D e → (pat.rename f).admits e = false ∨
      ((σ.rename f).withQuad (pat.rename f) e : Out Empty _) = .ok none) :
    Thin f σ pat (candidates ds pat) (candidates ds' (pat.rename f)) := by
  unfold candidates
  induction hds with
  | nil => exact .nil
  | keep q h ih =>
    have ih := ih fun q' h' => hq q' (by simp [h'])
    simp only [List.filter_cons, admits_rename hf pat hp q (hq q (by simp))]
    split
    · exact .live q ih
    · exact ih
  | add he h ih =>
    have ih := ih hq
    simp only [List.filter_cons]
    rcases hu _ he with h' | h'
    · simpa [h'] using ih
    · split
      · exact .dead h' ih
      · exact ih

theorem next_rel {ε : Type _} (hf : InjOn f P) (hds : Enriched f D ds ds') (hq : ∀ q ∈ ds, ∀ r, q.Has r → P r) :
    ∀ (n' n : Nat) (st st' : Stack R), List.Forall₂ (StateRel f P D ds) st st' →
      (nextFuel ds n st : Out ε _) ≠ .fuel → (nextFuel ds' n' st' : Out ε _) ≠ .fuel →
      NextRel f P D ds (nextFuel ds n st : Out ε _) (nextFuel ds' n' st') := by
  intro n'
  induction n' with
  | zero => intro n st st' _ _ h; exact absurd rfl h
  | succ n' ih =>
    intro n st st' hst hn hn'
    cases n with
    | zero => exact absurd rfl hn
    | succ n =>
    cases hst with
    | nil => exact .none
    | @cons s s' st st' hs hst =>
      obtain ⟨σ, qs, rest⟩ := s
      obtain ⟨σ', qs', rest'⟩ := s'
      obtain ⟨hw, hp, rfl, rfl, hstate⟩ := hs
      rcases hstate with ⟨rfl, rfl, hu⟩ | ⟨pat, ms, ms', rfl, rfl, hth, hms, hu⟩
      · cases rest with
        | nil =>
          simp only [nextFuel, step, List.map_nil]
          exact .some hw hst
        | cons pat rest =>
          simp only [nextFuel, step, List.map_cons] at hn hn' ⊢
          refine ih n _ _ (.cons ⟨hw, fun q h => hp q (by simp [h]), rfl, rfl, .inr ⟨pat, _, _, rfl, rfl,
            thin_candidates hf hds hq σ pat (hp pat (by simp)) hu.1, ?_, ?_⟩⟩ hst) hn hn'
          · intro q h; exact (List.mem_filter.1 h).1
          · intro q h; exact hu.2 q (List.mem_filter.1 h).1
      · cases hth with
        | nil =>
          simp only [nextFuel, step] at hn hn' ⊢
          exact ih n _ _ hst hn hn'
        | @live q ms ms' hth =>
          have hqP := hq q (hms q (by simp))
          have e := withQuad_rename (ε := Empty) hf σ hw pat q hqP
          simp only [nextFuel, step] at hn hn' ⊢
          rw [e] at hn' ⊢
          have hrest : StateRel f P D ds ⟨σ, some (pat, ms), rest⟩ ⟨σ.rename f, some (pat.rename f, ms'), rest.map (QuadPat.rename f)⟩ :=
            ⟨hw, hp, rfl, rfl, .inr ⟨pat, ms, ms', rfl, rfl, hth, fun q h => hms q (by simp [h]), fun q h => hu q (by simp [h])⟩⟩
          match hr : (σ.withQuad pat q : Out Empty _) with
          | .ok (some σ₁) =>
            simp only [hr, Out.map, Option.map_some] at hn hn' ⊢
            have hg := withQuad_grows hr
            exact ih n _ _ (.cons ⟨hg.within hw hqP, hp, rfl, rfl, .inl ⟨rfl, rfl, hu q (by simp) σ₁ hr⟩⟩ (.cons hrest hst)) hn hn'
          | .ok none =>
            simp only [hr, Out.map, Option.map_none] at hn hn' ⊢
            exact ih n _ _ (.cons hrest hst) hn hn'
          | .panic => simp only [Out.map]; exact .panic
          | .fuel => simp only [Out.map]; exact .panic
          | .err e => exact e.elim
        | @dead e ms ms' hd hth =>
          have hrest : StateRel f P D ds ⟨σ, some (pat, ms), rest⟩ ⟨σ.rename f, some (pat.rename f, ms'), rest.map (QuadPat.rename f)⟩ :=
            ⟨hw, hp, rfl, rfl, .inr ⟨pat, ms, ms', rfl, rfl, hth, hms, hu⟩⟩
          rw [show (nextFuel ds' (n' + 1) (⟨σ.rename f, some (pat.rename f, e :: ms'), rest.map (QuadPat.rename f)⟩ :: st') : Out ε _) =
            nextFuel ds' n' (⟨σ.rename f, some (pat.rename f, ms'), rest.map (QuadPat.rename f)⟩ :: st') by
              simp only [nextFuel, step, hd]] at hn' ⊢
          exact ih (n + 1) _ _ (.cons hrest hst) hn hn'

theorem next_sim {ε : Type _} (hf : InjOn f P) (hds : Enriched f D ds ds') (hq : ∀ q ∈ ds, ∀ r, q.Has r → P r)
    (st st' : Stack R) (h : List.Forall₂ (StateRel f P D ds) st st') :
    NextRel f P D ds (next ds st : Out ε _) (next ds' st') :=
  next_rel hf hds hq _ _ st st' h (next_ne_fuel ds st) (next_ne_fuel ds' st')

theorem new_rel (σ : Subst R) (hσ : σ.Within P) (pats : List (QuadPat R)) (hp : ∀ q ∈ pats, q.Within P)
    (hu : Useless f D ds σ pats) :
    List.Forall₂ (StateRel f P D ds) (new σ pats) (new (σ.rename f) (pats.map (QuadPat.rename f))) :=
  .cons ⟨hσ, hp, rfl, rfl, .inl ⟨rfl, rfl, hu⟩⟩ .nil

theorem intoUnique_rename (hf : InjOn f P) (hds : Enriched f D ds ds') (hq : ∀ q ∈ ds, ∀ r, q.Has r → P r)
    (σ : Subst R) (hσ : σ.Within P) (pats : List (QuadPat R)) (hp : ∀ q ∈ pats, q.Within P) (hu : Useless f D ds σ pats) :
    intoUnique ds' (new (σ.rename f) (pats.map (QuadPat.rename f))) =
      (intoUnique ds (new σ pats)).map (Option.map (Subst.rename f)) := by
  have h := next_sim (ε := Error) hf hds hq _ _ (new_rel (f := f) (D := D) (ds := ds) σ hσ pats hp hu)
  unfold intoUnique
  generalize (next ds (new σ pats) : Out Error _) = a at h
  generalize (next ds' (new (σ.rename f) (pats.map (QuadPat.rename f))) : Out Error _) = b at h
  cases h with
  | none => rfl
  | panic => rfl
  | @some σ₁ st st' hw hst =>
    have h := next_sim (ε := Error) hf hds hq _ _ hst
    simp only [Out.bind_ok]
    generalize (next ds st : Out Error _) = a at h
    generalize (next ds' st' : Out Error _) = b at h
    cases h with
    | none => rfl
    | panic => rfl
    | some _ _ => rfl

end Matching

end Verif
