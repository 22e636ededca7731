import Verif.Matching
import Verif.MatchingSpec
import Mathlib.Data.List.Nodup

/-! # Lemmas about the matching machine -/

set_option linter.unusedSectionVars false
set_option linter.unusedSimpArgs false

namespace Verif

variable {R : Type _}

theorem Subst.ext_get {σ τ : Subst R} (hl : σ.length = τ.length) (h : ∀ i, σ.get i = τ.get i) : σ = τ := by
  apply List.ext_getElem hl
  intro i h1 h2
  have := h i
  simpa [Subst.get, h1, h2] using this

theorem Subst.get_of_ge {σ : Subst R} {i : Nat} (h : σ.length ≤ i) : σ.get i = none := by
  simp [Subst.get, h]

theorem Subst.get_set {σ : Subst R} {i x : Nat} {v : Option R} (h : x < σ.length) :
    Subst.get (List.set σ x v) i = if i = x then v else σ.get i := by
  unfold Subst.get
  by_cases hi : i = x
  · subst hi; simp [h]
  · simp [hi, List.getElem?_set, Ne.symm hi]

/-- `τ` extends `σ` by binding only variables of `X`. -/
structure Ext (σ τ : Subst R) (X : List Nat) : Prop where
  len : τ.length = σ.length
  keeps : ∀ i r, σ.get i = some r → τ.get i = some r
  minimal : ∀ i r, τ.get i = some r → σ.get i = some r ∨ i ∈ X

theorem Ext.refl (σ : Subst R) : Ext σ σ [] := ⟨rfl, fun _ _ h => h, fun _ _ h => .inl h⟩

theorem Ext.trans {σ τ υ : Subst R} {X Y} (h : Ext σ τ X) (k : Ext τ υ Y) : Ext σ υ (X ++ Y) where
  len := k.len.trans h.len
  keeps i r e := k.keeps i r (h.keeps i r e)
  minimal i r e := by
    rcases k.minimal i r e with e | e
    · rcases h.minimal i r e with e | e
      · exact .inl e
      · exact .inr (by simp [e])
    · exact .inr (by simp [e])

/-- The part of `υ` that binds only what `σ` binds and `X`. -/
def restrictTo (σ υ : Subst R) (X : List Nat) : Subst R :=
  (List.range σ.length).map fun i => if i ∈ X then υ.get i else σ.get i

theorem get_restrictTo {σ υ : Subst R} {X : List Nat} (h : υ.length = σ.length) (i : Nat) :
    (restrictTo σ υ X).get i = if i ∈ X then υ.get i else σ.get i := by
  by_cases hi : i < σ.length
  · simp [restrictTo, Subst.get, hi]
  · have h1 : σ.get i = none := Subst.get_of_ge (by omega)
    have h2 : υ.get i = none := Subst.get_of_ge (by omega)
    have h3 : (restrictTo σ υ X).get i = none := Subst.get_of_ge (by simp [restrictTo]; omega)
    simp [h1, h2, h3]

theorem Ext.split {σ υ : Subst R} {X Y} (h : Ext σ υ (X ++ Y)) :
    Ext σ (restrictTo σ υ X) X ∧ Ext (restrictTo σ υ X) υ Y ∧
      (∀ i ∈ X, (restrictTo σ υ X).get i = υ.get i) := by
  refine ⟨⟨by simp [restrictTo], ?_, ?_⟩, ⟨by simp [restrictTo, h.len], ?_, ?_⟩, ?_⟩
  · intro i r e
    rw [get_restrictTo h.len]
    split
    · exact h.keeps i r e
    · exact e
  · intro i r e
    rw [get_restrictTo h.len] at e
    split at e
    · right; assumption
    · left; exact e
  · intro i r e
    rw [get_restrictTo h.len] at e
    split at e
    · exact e
    · exact h.keeps i r e
  · intro i r e
    rw [get_restrictTo h.len]
    by_cases hx : i ∈ X
    · simp [hx, e]
    · rcases h.minimal i r e with e' | e'
      · simp [hx, e']
      · right; simpa [hx] using e'
  · intro i hi
    rw [get_restrictTo h.len]; simp [hi]

theorem Ext.unique {σ τ τ' : Subst R} {X} (h : Ext σ τ X) (h' : Ext σ τ' X)
    (hX : ∀ i ∈ X, τ.get i = τ'.get i) : τ = τ' := by
  apply Subst.ext_get (h.len.trans h'.len.symm)
  intro i
  by_cases hi : i ∈ X
  · exact hX i hi
  · cases e : τ.get i with
    | some r =>
      rcases h.minimal i r e with e' | e'
      · exact (h'.keeps i r e').symm
      · exact absurd e' hi
    | none =>
      cases e2 : τ'.get i with
      | none => rfl
      | some r =>
        rcases h'.minimal i r e2 with e' | e'
        · rw [h.keeps i r e'] at e; cases e
        · exact absurd e' hi

variable [DecidableEq R]

/-- A partial transformer of substitutions binds exactly `X` so that `P` holds. -/
def Binds {ε} (f : Subst R → Out ε (Option (Subst R))) (X : List Nat) (P : (Nat → Option R) → Prop) : Prop :=
  ∀ σ : Subst R, (∀ x ∈ X, x < σ.length) →
    (∃ r, f σ = .ok r) ∧ ∀ τ, f σ = .ok (some τ) ↔ Ext σ τ X ∧ P τ.get

/-- `P` depends on the variables of `X` only. -/
def LocalTo (X : List Nat) (P : (Nat → Option R) → Prop) : Prop :=
  ∀ f g : Nat → Option R, (∀ i ∈ X, ∀ r, f i = some r → g i = some r) → P f → P g

theorem Binds.andThen {ε} {f g : Subst R → Out ε (Option (Subst R))} {X Y} {P Q : (Nat → Option R) → Prop}
    (hf : Binds f X P) (hg : Binds g Y Q) (lP : LocalTo X P) :
    Binds (fun σ => Subst.andThen (f σ) g) (X ++ Y) (fun h => P h ∧ Q h) := by
  intro σ hσ
  obtain ⟨⟨r, hr⟩, hf'⟩ := hf σ (fun x hx => hσ x (by simp [hx]))
  constructor
  · simp only [hr]
    cases r with
    | none => exact ⟨none, rfl⟩
    | some τ =>
      have := (hf' τ).1 hr
      simp only [Subst.andThen]
      exact (hg τ (fun x hx => by rw [this.1.len]; exact hσ x (by simp [hx]))).1
  · intro υ
    constructor
    · intro h
      simp only [hr] at h
      cases r with
      | none => simp [Subst.andThen] at h
      | some τ =>
        have h1 := (hf' τ).1 hr
        simp only [Subst.andThen] at h
        have h2 := ((hg τ (fun x hx => by rw [h1.1.len]; exact hσ x (by simp [hx]))).2 υ).1 h
        exact ⟨h1.1.trans h2.1, lP _ _ (fun i _ r e => h2.1.keeps i r e) h1.2, h2.2⟩
    · rintro ⟨he, hp, hq⟩
      obtain ⟨e1, e2, e3⟩ := he.split
      have h1 := (hf' (restrictTo σ υ X)).2 ⟨e1, lP _ _ (fun i hi r e => by rw [e3 i hi]; exact e) hp⟩
      simp only [h1, Subst.andThen]
      exact ((hg _ (fun x hx => by rw [e1.len]; exact hσ x (by simp [hx]))).2 υ).2 ⟨e2, hq⟩

theorem binds_component {ε} (pat : Pattern R) (v : R) :
    Binds (ε := ε) (fun σ => σ.bindComponent pat v) pat.vars
      (fun f => ∀ x ∈ pat.vars, f x = some v) := by
  intro σ hσ
  cases pat with
  | res r =>
    refine ⟨⟨some σ, rfl⟩, fun τ => ?_⟩
    simp only [Subst.bindComponent, Out.ok.injEq, Option.some.injEq, Pattern.vars]
    constructor
    · rintro rfl; exact ⟨Ext.refl σ, by simp⟩
    · rintro ⟨h, -⟩; exact (Ext.refl σ).unique h (by simp)
  | var x =>
    have hx : x < σ.length := hσ x (by simp [Pattern.vars])
    have hext : σ.get x = none ∨ σ.get x = some v → Ext σ (List.set σ x (some v)) [x] := by
      intro h
      refine ⟨by simp, ?_, ?_⟩
      · intro i r e
        rw [Subst.get_set hx]
        split
        · subst i; rcases h with h | h <;> simp_all
        · exact e
      · intro i r e
        rw [Subst.get_set hx] at e
        split at e
        · right; simp_all
        · left; exact e
    have huniq : ∀ τ, Ext σ τ [x] ∧ τ.get x = some v → List.set σ x (some v) = τ := by
      rintro τ ⟨h, e⟩
      have hn : σ.get x = none ∨ σ.get x = some v := by
        cases e' : σ.get x with
        | none => simp
        | some r => right; have := h.keeps x r e'; rw [e] at this; simp_all
      refine (hext hn).unique h ?_
      intro i hi
      simp only [List.mem_singleton] at hi
      subst hi
      rw [Subst.get_set hx, if_pos rfl, e]
    have hget : σ.get x = σ[x] := by simp [Subst.get, hx]
    simp only [Subst.bindComponent, Subst.set, List.getElem?_eq_getElem hx, Pattern.vars,
      List.mem_singleton, forall_eq]
    cases hold : σ[x] with
    | none =>
      rw [hold] at hget
      refine ⟨⟨_, rfl⟩, fun τ => ?_⟩
      simp only [Out.ok.injEq, Option.some.injEq]
      constructor
      · rintro rfl
        exact ⟨hext (.inl hget), by rw [Subst.get_set hx]; simp⟩
      · exact huniq τ
    | some old =>
      rw [hold] at hget
      by_cases ho : old = v
      · subst ho
        refine ⟨⟨some (List.set σ x (some old)), by simp⟩, fun τ => ?_⟩
        simp only [ne_eq, not_true_eq_false, if_false, Out.ok.injEq, Option.some.injEq]
        constructor
        · rintro rfl
          exact ⟨hext (.inr hget), by rw [Subst.get_set hx]; simp⟩
        · exact huniq τ
      · refine ⟨⟨none, by simp [ho]⟩, fun τ => ?_⟩
        simp only [ne_eq, ho, not_false_eq_true, if_true, Out.ok.injEq, reduceCtorEq, false_iff]
        rintro ⟨h, e⟩
        have := h.keeps x old hget
        rw [e] at this
        simp_all

theorem localTo_component (pat : Pattern R) (v : R) :
    LocalTo pat.vars (fun f => ∀ x ∈ pat.vars, f x = some v) :=
  fun _ _ h hf x hx => h x hx v (hf x hx)

/-- The graph part of `with_quad`. -/
theorem binds_graph {ε} (pg : Option (Pattern R)) (g : Option R)
    (hg : ∀ x, pg = some (.var x) → g ≠ none) :
    Binds (ε := ε) (fun σ => match pg with
      | some (.var x) =>
        match g with
        | some g => σ.bindComponent (.var x) g
        | none => .panic
      | _ => .ok (some σ)) ((pg.map Pattern.vars).getD [])
      (fun f => ∀ p, pg = some p → ∀ x ∈ p.vars, f x = g) := by
  match pg, g, hg with
  | none, _, _ =>
    intro σ _
    refine ⟨⟨some σ, rfl⟩, fun τ => ?_⟩
    simp only [Out.ok.injEq, Option.some.injEq]
    constructor
    · rintro rfl; exact ⟨Ext.refl σ, by simp⟩
    · rintro ⟨h, -⟩; exact (Ext.refl σ).unique h (by simp)
  | some (.res r), _, _ =>
    intro σ _
    refine ⟨⟨some σ, rfl⟩, fun τ => ?_⟩
    simp only [Out.ok.injEq, Option.some.injEq]
    constructor
    · rintro rfl; exact ⟨Ext.refl σ, by rintro p rfl; simp [Pattern.vars]⟩
    · rintro ⟨h, -⟩; exact (Ext.refl σ).unique h (by simp [Pattern.vars])
  | some (.var x), none, hg => exact absurd rfl (hg x rfl)
  | some (.var x), some g, _ =>
    have := binds_component (ε := ε) (Pattern.var x) g
    intro σ hσ
    obtain ⟨h1, h2⟩ := this σ hσ
    refine ⟨h1, fun τ => ?_⟩
    simp only [Option.map_some, Option.getD_some, Option.some.injEq, forall_eq']
    exact h2 τ

theorem localTo_true (X : List Nat) : LocalTo (R := R) X (fun _ => True) := fun _ _ _ h => h

/-- `Denotes` splits into what the candidates guarantee and what `with_quad` binds. -/
theorem denotes_iff (pat : QuadPat R) (q : Quad R) (f : Nat → Option R) :
    pat.Denotes f q ↔ pat.admits q = true ∧ ((∀ x ∈ pat.s.vars, f x = some q.s) ∧
      (∀ x ∈ pat.p.vars, f x = some q.p) ∧ (∀ x ∈ pat.o.vars, f x = some q.o) ∧
      (∀ p, pat.g = some p → ∀ x ∈ p.vars, f x = q.g)) := by
  obtain ⟨s, p, o, g⟩ := pat
  obtain ⟨s', p', o', g'⟩ := q
  have key : ∀ (a : Pattern R) (r : R), a.Denotes f r ↔ a.admits r = true ∧ ∀ x ∈ a.vars, f x = some r := by
    intro a r
    cases a with
    | res r' => simp [Pattern.Denotes, Pattern.admits, Pattern.vars]; exact eq_comm
    | var x => simp [Pattern.Denotes, Pattern.admits, Pattern.vars]
  have same : ∀ (a b : Pattern R) (r t : R), (∀ x ∈ a.vars, f x = some r) → (∀ x ∈ b.vars, f x = some t) →
      sameVar a b r t = true := by
    intro a b r t ha hb
    cases a with
    | res _ => simp [sameVar]
    | var x =>
      cases b with
      | res _ => simp [sameVar]
      | var y =>
        by_cases hxy : x = y
        · subst hxy
          have h1 := ha x (by simp [Pattern.vars])
          have h2 := hb x (by simp [Pattern.vars])
          rw [h1] at h2
          simp_all [sameVar]
        · simp [sameVar, hxy]
  cases g with
  | none =>
    cases g' with
    | none =>
      simp only [QuadPat.Denotes, key, QuadPat.admits, Bool.and_eq_true, and_true, reduceCtorEq,
        false_implies, implies_true]
      constructor
      · rintro ⟨⟨a1, a2⟩, ⟨b1, b2⟩, ⟨c1, c2⟩⟩
        exact ⟨⟨⟨⟨⟨⟨a1, b1⟩, c1⟩, same _ _ _ _ a2 b2⟩, same _ _ _ _ a2 c2⟩, same _ _ _ _ b2 c2⟩, a2, b2, c2⟩
      · rintro ⟨⟨⟨⟨⟨⟨a1, b1⟩, c1⟩, _⟩, _⟩, _⟩, a2, b2, c2⟩
        exact ⟨⟨a1, a2⟩, ⟨b1, b2⟩, ⟨c1, c2⟩⟩
    | some g' => simp [QuadPat.Denotes, QuadPat.admits]
  | some g =>
    cases g' with
    | none => simp [QuadPat.Denotes, QuadPat.admits]
    | some g' =>
      simp only [QuadPat.Denotes, key, QuadPat.admits, Bool.and_eq_true, Option.some.injEq, forall_eq']
      constructor
      · rintro ⟨⟨a1, a2⟩, ⟨b1, b2⟩, ⟨c1, c2⟩, ⟨d1, d2⟩⟩
        exact ⟨⟨⟨⟨⟨⟨⟨a1, b1⟩, c1⟩, same _ _ _ _ a2 b2⟩, same _ _ _ _ a2 c2⟩, same _ _ _ _ b2 c2⟩,
          ⟨⟨d1, same _ _ _ _ a2 d2⟩, same _ _ _ _ b2 d2⟩, same _ _ _ _ c2 d2⟩, a2, b2, c2, d2⟩
      · rintro ⟨⟨⟨⟨⟨⟨⟨a1, b1⟩, c1⟩, _⟩, _⟩, _⟩, ⟨⟨d1, _⟩, _⟩, _⟩, a2, b2, c2, d2⟩
        exact ⟨⟨a1, a2⟩, ⟨b1, b2⟩, ⟨c1, c2⟩, ⟨d1, d2⟩⟩

theorem admits_graph {pat : QuadPat R} {q : Quad R} (h : pat.admits q = true) :
    ∀ x, pat.g = some (.var x) → q.g ≠ none := by
  intro x hx hq
  simp [QuadPat.admits, hx, hq] at h

/-- `with_quad` on a candidate: it never panics when the variables are declared, and it returns the unique smallest
extension under which the pattern denotes the quad. -/
theorem withQuad_spec {ε} (pat : QuadPat R) (q : Quad R) (hadm : pat.admits q = true) (σ : Subst R)
    (hσ : ∀ x ∈ pat.vars, x < σ.length) :
    (∃ r, (σ.withQuad pat q : Out ε _) = .ok r) ∧
    ∀ τ, (σ.withQuad pat q : Out ε _) = .ok (some τ) ↔ Ext σ τ pat.vars ∧ pat.Denotes τ.get q := by
  have b := (binds_component (ε := ε) pat.s q.s).andThen
    ((binds_component pat.p q.p).andThen
      ((binds_component pat.o q.o).andThen (binds_graph pat.g q.g (admits_graph hadm))
        (localTo_component _ _)) (localTo_component _ _)) (localTo_component _ _)
  obtain ⟨h1, h2⟩ := b σ hσ
  refine ⟨h1, fun τ => ?_⟩
  rw [denotes_iff]
  simp only [hadm, true_and]
  exact h2 τ

namespace Matching

/-- `with_quad` seen as a partial function. -/
def withQuadO (σ : Subst R) (pat : QuadPat R) (q : Quad R) : Option (Subst R) :=
  match (σ.withQuad pat q : Out Empty _) with
  | .ok r => r
  | _ => none

/-- Recursive enumeration of the matches. -/
def enum (ds : List (Quad R)) : List (QuadPat R) → Subst R → List (Subst R)
  | [], σ => [σ]
  | pat :: rest, σ => (candidates ds pat).flatMap fun q =>
      match withQuadO σ pat q with
      | some σ' => enum ds rest σ'
      | none => []

/-- The substitutions a state of the machine is still going to produce. -/
def State.enum (ds : List (Quad R)) (s : State R) : List (Subst R) :=
  match s.quadState with
  | none => Matching.enum ds s.rest s.subst
  | some (pat, ms) => ms.flatMap fun q =>
      match withQuadO s.subst pat q with
      | some σ' => Matching.enum ds s.rest σ'
      | none => []

/-- The substitutions a stack is still going to produce. -/
def stackEnum (ds : List (Quad R)) (st : Stack R) : List (Subst R) := st.flatMap (State.enum ds)

/-- Invariant of the states: variables are declared and pending quads are candidates. -/
def State.Inv (s : State R) : Prop :=
  (∀ x ∈ patsVars s.rest, x < s.subst.length) ∧
  ∀ pat ms, s.quadState = some (pat, ms) →
    (∀ x ∈ pat.vars, x < s.subst.length) ∧ ∀ m ∈ ms, QuadPat.admits pat m = true

theorem step_spec (ds : List (Quad R)) (st : Stack R) (hst : ∀ s ∈ st, State.Inv s) :
    match step ds st with
    | .continue st' => stackEnum ds st' = stackEnum ds st ∧ ∀ s ∈ st', State.Inv s
    | .yield σ st' => stackEnum ds st = σ :: stackEnum ds st' ∧ ∀ s ∈ st', State.Inv s
    | .done => stackEnum ds st = []
    | .panic => False := by
  match st with
  | [] => simp [step, stackEnum]
  | ⟨σ, some (pat, []), rest⟩ :: st =>
    simp only [List.mem_cons, forall_eq_or_imp] at hst
    simp only [step]
    refine ⟨?_, hst.2⟩
    simp [stackEnum, State.enum]
  | ⟨σ, none, []⟩ :: st =>
    simp only [List.mem_cons, forall_eq_or_imp] at hst
    simp only [step]
    refine ⟨?_, hst.2⟩
    simp [stackEnum, State.enum, enum]
  | ⟨σ, none, pat :: rest⟩ :: st =>
    simp only [List.mem_cons, forall_eq_or_imp] at hst
    simp only [step]
    refine ⟨?_, ?_⟩
    · simp [stackEnum, State.enum, enum]
    · simp only [List.mem_cons, forall_eq_or_imp]
      refine ⟨⟨?_, ?_⟩, hst.2⟩
      · intro x hx
        exact hst.1.1 x (by simp [patsVars] at hx ⊢; exact .inr hx)
      · rintro pat' ms ⟨rfl, rfl⟩
        refine ⟨fun x hx => hst.1.1 x (by simp [patsVars, hx]), ?_⟩
        intro m hm
        simp [candidates] at hm
        exact hm.2
  | ⟨σ, some (pat, m :: ms), rest⟩ :: st =>
    simp only [List.mem_cons, forall_eq_or_imp] at hst
    obtain ⟨⟨hr, hq⟩, hst⟩ := hst
    obtain ⟨hv, hm⟩ := hq pat _ rfl
    obtain ⟨⟨r, hwq⟩, hspec⟩ := withQuad_spec (ε := Empty) pat m (hm m (by simp)) σ hv
    have inv' : State.Inv (⟨σ, some (pat, ms), rest⟩ : State R) := by
      refine ⟨hr, ?_⟩
      rintro pat' ms' ⟨rfl, rfl⟩
      exact ⟨hv, fun m' h' => hm m' (by simp [h'])⟩
    simp only [step, hwq]
    cases r with
    | none =>
      refine ⟨?_, ?_⟩
      · simp [stackEnum, State.enum, withQuadO, hwq]
      · simp only [List.mem_cons, forall_eq_or_imp]; exact ⟨inv', hst⟩
    | some τ =>
      refine ⟨?_, ?_⟩
      · simp [stackEnum, State.enum, withQuadO, hwq]
      · simp only [List.mem_cons, forall_eq_or_imp]
        have hlen := ((hspec τ).1 hwq).1.len
        refine ⟨⟨?_, by simp⟩, inv', hst⟩
        intro x hx
        simp only at hx ⊢
        rw [hlen]
        exact hr x hx

theorem weightNone_pos (d n : Nat) : 0 < weightNone d n := by
  cases n <;> simp [weightNone]; omega

theorem step_weight (ds : List (Quad R)) (st st' : Stack R) (h : step ds st = .continue st') :
    weight ds.length st' < weight ds.length st := by
  match st with
  | [] => simp [step] at h
  | ⟨σ, some (pat, []), rest⟩ :: st =>
    simp only [step, Step.continue.injEq] at h
    subst h
    simp [weight, State.weight]
  | ⟨σ, none, []⟩ :: st => simp [step] at h
  | ⟨σ, none, pat :: rest⟩ :: st =>
    simp only [step, Step.continue.injEq] at h
    subst h
    have : (candidates ds pat).length ≤ ds.length := List.length_filter_le _ _
    have := Nat.mul_le_mul_right (1 + weightNone ds.length rest.length) this
    simp only [weight, State.weight, List.map_cons, List.sum_cons, List.length_cons, weightNone]
    omega
  | ⟨σ, some (pat, m :: ms), rest⟩ :: st =>
    have e : (ms.length + 1) * (1 + weightNone ds.length rest.length) =
      ms.length * (1 + weightNone ds.length rest.length) + (1 + weightNone ds.length rest.length) := by
      rw [Nat.add_mul]; simp
    simp only [step] at h
    split at h
    · simp only [Step.continue.injEq] at h
      subst h
      simp only [weight, State.weight, List.map_cons, List.sum_cons, List.length_cons, e]
      omega
    · simp only [Step.continue.injEq] at h
      subst h
      simp only [weight, State.weight, List.map_cons, List.sum_cons, List.length_cons, e]
      omega
    · simp at h

theorem step_yield_weight (ds : List (Quad R)) (st st' : Stack R) (σ) (h : step ds st = .yield σ st') :
    weight ds.length st' < weight ds.length st := by
  match st with
  | [] => simp [step] at h
  | ⟨σ, some (pat, []), rest⟩ :: st => simp [step] at h
  | ⟨σ, none, []⟩ :: st =>
    simp only [step, Step.yield.injEq] at h
    obtain ⟨-, rfl⟩ := h
    simp [weight, State.weight, weightNone]
  | ⟨σ, none, pat :: rest⟩ :: st => simp [step] at h
  | ⟨σ, some (pat, m :: ms), rest⟩ :: st =>
    simp only [step] at h
    split at h <;> simp at h

/-- The iteration bound is never reached: `next` always terminates. -/
theorem nextFuel_ne_fuel {ε} (ds : List (Quad R)) (n : Nat) (st : Stack R) (h : weight ds.length st < n) :
    (nextFuel ds n st : Out ε _) ≠ .fuel := by
  induction n generalizing st with
  | zero => omega
  | succ n ih =>
    simp only [nextFuel]
    split
    · rename_i st' e
      exact ih st' (by have := step_weight ds st st' e; omega)
    all_goals simp

theorem next_ne_fuel {ε} (ds : List (Quad R)) (st : Stack R) : (next ds st : Out ε _) ≠ .fuel :=
  nextFuel_ne_fuel ds _ st (by omega)

theorem nextFuel_weight {ε} (ds : List (Quad R)) (n : Nat) (st st' : Stack R) (σ)
    (h : (nextFuel ds n st : Out ε _) = .ok (some (σ, st'))) : weight ds.length st' < weight ds.length st := by
  induction n generalizing st with
  | zero => simp [nextFuel] at h
  | succ n ih =>
    simp only [nextFuel] at h
    split at h
    · rename_i st₁ e
      have := step_weight ds st st₁ e
      have := ih st₁ h
      omega
    · rename_i σ₁ st₁ e
      simp only [Out.ok.injEq, Option.some.injEq, Prod.mk.injEq] at h
      obtain ⟨rfl, rfl⟩ := h
      exact step_yield_weight ds st _ _ e
    · simp at h
    · simp at h

theorem nextFuel_spec {ε} (ds : List (Quad R)) (n : Nat) (st : Stack R) (hw : weight ds.length st < n)
    (hst : ∀ s ∈ st, State.Inv s) :
    match (nextFuel ds n st : Out ε _) with
    | .ok none => stackEnum ds st = []
    | .ok (some (σ, st')) => stackEnum ds st = σ :: stackEnum ds st' ∧ ∀ s ∈ st', State.Inv s
    | _ => False := by
  induction n generalizing st with
  | zero => omega
  | succ n ih =>
    have hs := step_spec ds st hst
    simp only [nextFuel]
    cases e : step ds st with
    | «continue» st' =>
      rw [e] at hs
      simp only at hs ⊢
      have := ih st' (by have := step_weight ds st st' e; omega) hs.2
      rw [hs.1] at this
      exact this
    | yield σ st' => rw [e] at hs; exact hs
    | done => rw [e] at hs; exact hs
    | panic => rw [e] at hs; exact hs

theorem next_spec {ε} (ds : List (Quad R)) (st : Stack R) (hst : ∀ s ∈ st, State.Inv s) :
    match (next ds st : Out ε _) with
    | .ok none => stackEnum ds st = []
    | .ok (some (σ, st')) => stackEnum ds st = σ :: stackEnum ds st' ∧ ∀ s ∈ st', State.Inv s
    | _ => False := nextFuel_spec ds _ st (by omega) hst

theorem inv_new {σ : Subst R} {pats : List (QuadPat R)} (h : Declared σ pats) :
    ∀ s ∈ new σ pats, State.Inv s := by
  simp only [new, List.mem_singleton, forall_eq]
  exact ⟨h, by simp⟩

theorem stackEnum_new (ds : List (Quad R)) (σ : Subst R) (pats) : stackEnum ds (new σ pats) = enum ds pats σ := by
  simp [stackEnum, new, State.enum]

theorem collectFuel_spec {ε} (ds : List (Quad R)) (n : Nat) (st : Stack R) (hw : weight ds.length st < n)
    (hst : ∀ s ∈ st, State.Inv s) : (collectFuel ds n st : Out ε _) = .ok (stackEnum ds st) := by
  induction n generalizing st with
  | zero => omega
  | succ n ih =>
    have hs := next_spec (ε := ε) ds st hst
    simp only [collectFuel]
    split at hs
    · rename_i e; simp [e, hs]
    · rename_i σ st' e
      have hw' := nextFuel_weight ds _ _ _ _ e
      simp [e, ih st' (by omega) hs.2, hs.1, Out.map]
    · exact hs.elim

theorem collect_eq_enum {ε} (ds : List (Quad R)) (σ : Subst R) (pats) (h : Declared σ pats) :
    (collect ds (new σ pats) : Out ε _) = .ok (enum ds pats σ) := by
  rw [collect, collectFuel_spec ds _ _ (by omega) (inv_new h), stackEnum_new]

theorem intoUnique_eq (ds : List (Quad R)) (σ : Subst R) (pats) (h : Declared σ pats) :
    intoUnique ds (new σ pats) =
      match enum ds pats σ with
      | [] => .ok none
      | [τ] => .ok (some τ)
      | _ => .err .ambiguity := by
  have hs := next_spec (ε := Error) ds _ (inv_new h)
  rw [stackEnum_new] at hs
  unfold intoUnique
  split at hs
  · rename_i e; simp [e, hs]
  · rename_i τ st' e
    have hs' := next_spec (ε := Error) ds st' hs.2
    split at hs'
    · rename_i e'; simp [e, e', hs.1, hs']
    · rename_i τ' st'' e'; simp [e, e', hs.1, hs'.1]
    · exact hs'.elim
  · exact hs.elim

theorem declared_cons {σ : Subst R} {pat : QuadPat R} {rest} (h : Declared σ (pat :: rest)) :
    (∀ x ∈ pat.vars, x < σ.length) ∧ Declared σ rest :=
  ⟨fun x hx => h x (by simp [patsVars, hx]), fun x hx => h x (by simp [patsVars] at hx ⊢; exact .inr hx)⟩

theorem denotes_mono {pat : QuadPat R} {q : Quad R} {f g : Nat → Option R}
    (h : ∀ i ∈ pat.vars, ∀ r, f i = some r → g i = some r) (hd : pat.Denotes f q) : pat.Denotes g q := by
  obtain ⟨s, p, o, gr⟩ := pat
  obtain ⟨s', p', o', g'⟩ := q
  have key : ∀ (a : Pattern R) (r : R), (∀ i ∈ a.vars, i ∈ QuadPat.vars ⟨s, p, o, gr⟩) →
      a.Denotes f r → a.Denotes g r := by
    intro a r ha hd
    cases a with
    | res _ => exact hd
    | var x => exact h x (ha x (by simp [Pattern.vars])) r hd
  simp only [QuadPat.Denotes] at hd ⊢
  obtain ⟨h1, h2, h3, h4⟩ := hd
  refine ⟨key _ _ (fun i hi => by simp [QuadPat.vars, hi]) h1,
    key _ _ (fun i hi => by simp [QuadPat.vars, hi]) h2,
    key _ _ (fun i hi => by simp [QuadPat.vars, hi]) h3, ?_⟩
  cases gr with
  | none => cases g' <;> simp_all
  | some gr =>
    cases g' with
    | none => simp_all
    | some g' => exact key _ _ (fun i hi => by simp [QuadPat.vars, hi]) h4

/-- The enumeration contains exactly the matches. -/
theorem mem_enum (ds : List (Quad R)) (pats : List (QuadPat R)) (σ : Subst R) (hd : Declared σ pats)
    (τ : Subst R) : τ ∈ enum ds pats σ ↔ IsMatch ds σ pats τ := by
  induction pats generalizing σ with
  | nil =>
    simp only [enum, List.mem_singleton]
    constructor
    · rintro rfl; exact ⟨rfl, fun _ _ h => h, by simp, fun _ _ h => .inl h⟩
    · intro h
      exact ((Ext.refl σ).unique ⟨h.length_eq, h.keeps, fun i r e => by simpa [patsVars] using h.minimal i r e⟩
        (by simp)).symm
  | cons pat rest ih =>
    obtain ⟨hv, hr⟩ := declared_cons hd
    simp only [enum, List.mem_flatMap, candidates, List.mem_filter]
    constructor
    · rintro ⟨q, ⟨hq, hadm⟩, hτ⟩
      obtain ⟨⟨r, hwq⟩, hspec⟩ := withQuad_spec (ε := Empty) pat q hadm σ hv
      cases r with
      | none => simp [withQuadO, hwq] at hτ
      | some σ₁ =>
        simp only [withQuadO, hwq] at hτ
        obtain ⟨e1, d1⟩ := (hspec σ₁).1 hwq
        have hm := (ih σ₁ (fun x hx => by rw [e1.len]; exact hr x hx)).1 hτ
        have e2 : Ext σ₁ τ (patsVars rest) := ⟨hm.length_eq, hm.keeps, hm.minimal⟩
        have e := e1.trans e2
        refine ⟨e.len, e.keeps, ?_, ?_⟩
        · intro p hp
          rcases List.mem_cons.1 hp with rfl | hp
          · exact ⟨q, hq, denotes_mono (fun i _ r h => e2.keeps i r h) d1⟩
          · exact hm.sat p hp
        · intro i r h
          simpa [patsVars] using e.minimal i r h
    · intro hm
      obtain ⟨q, hq, hden⟩ := hm.sat pat (by simp)
      have hadm := ((denotes_iff pat q _).1 hden).1
      obtain ⟨_, hspec⟩ := withQuad_spec (ε := Empty) pat q hadm σ hv
      have e : Ext σ τ (pat.vars ++ patsVars rest) :=
        ⟨hm.length_eq, hm.keeps, fun i r h => by simpa [patsVars] using hm.minimal i r h⟩
      obtain ⟨e1, e2, e3⟩ := e.split
      have d1 : pat.Denotes (restrictTo σ τ pat.vars).get q :=
        denotes_mono (fun i hi r h => by rw [e3 i hi]; exact h) hden
      have hwq := (hspec _).2 ⟨e1, d1⟩
      refine ⟨q, ⟨hq, hadm⟩, ?_⟩
      simp only [withQuadO, hwq]
      apply (ih _ (fun x hx => by rw [e1.len]; exact hr x hx)).2
      exact ⟨e2.len, e2.keeps, fun p hp => hm.sat p (by simp [hp]), e2.minimal⟩

theorem denotes_unique {pat : QuadPat R} {q q' : Quad R} {f : Nat → Option R}
    (h : pat.Denotes f q) (h' : pat.Denotes f q') : q = q' := by
  obtain ⟨s, p, o, g⟩ := pat
  obtain ⟨s', p', o', g'⟩ := q
  obtain ⟨s'', p'', o'', g''⟩ := q'
  have key : ∀ (a : Pattern R) (r r' : R), a.Denotes f r → a.Denotes f r' → r = r' := by
    intro a r r' h h'
    cases a with
    | res _ => exact h.trans h'.symm
    | var x => simp only [Pattern.Denotes] at h h'; rw [h] at h'; simpa using h'
  simp only [QuadPat.Denotes] at h h'
  obtain ⟨h1, h2, h3, h4⟩ := h
  obtain ⟨k1, k2, k3, k4⟩ := h'
  have := key _ _ _ h1 k1
  have := key _ _ _ h2 k2
  have := key _ _ _ h3 k3
  cases g <;> cases g' <;> cases g'' <;> simp_all
  exact key _ _ _ h4 k4

theorem nodup_enum (ds : List (Quad R)) (hds : ds.Nodup) (pats : List (QuadPat R)) (σ : Subst R)
    (hd : Declared σ pats) : (enum ds pats σ).Nodup := by
  induction pats generalizing σ with
  | nil => simp [enum]
  | cons pat rest ih =>
    obtain ⟨hv, hr⟩ := declared_cons hd
    have key : ∀ q ∈ candidates ds pat, ∀ σ₁, withQuadO σ pat q = some σ₁ →
        Declared σ₁ rest ∧ pat.Denotes σ₁.get q := by
      intro q hq σ₁ h
      have hadm : QuadPat.admits pat q = true := (List.mem_filter.1 hq).2
      obtain ⟨⟨r, hwq⟩, hspec⟩ := withQuad_spec (ε := Empty) pat q hadm σ hv
      simp only [withQuadO, hwq] at h
      subst h
      obtain ⟨e1, d1⟩ := (hspec σ₁).1 hwq
      exact ⟨fun x hx => by rw [e1.len]; exact hr x hx, d1⟩
    simp only [enum]
    rw [List.nodup_flatMap]
    constructor
    · intro q hq
      split
      · rename_i σ₁ e; exact ih σ₁ (key q hq σ₁ e).1
      · exact List.nodup_nil
    · have hnd : (candidates ds pat).Nodup := hds.filter _
      refine List.Pairwise.imp_of_mem ?_ hnd
      intro q q' hq hq' hne
      simp only [Function.onFun, List.disjoint_left]
      intro τ hτ hτ'
      apply hne
      split at hτ
      · rename_i σ₁ e₁
        split at hτ'
        · rename_i σ₂ e₂
          obtain ⟨c1, d1⟩ := key q hq σ₁ e₁
          obtain ⟨c2, d2⟩ := key q' hq' σ₂ e₂
          have m1 := (mem_enum ds rest σ₁ c1 τ).1 hτ
          have m2 := (mem_enum ds rest σ₂ c2 τ).1 hτ'
          exact denotes_unique (denotes_mono (fun i _ r h => m1.keeps i r h) d1)
            (denotes_mono (fun i _ r h => m2.keeps i r h) d2)
        · simp at hτ'
      · simp at hτ

end Matching

end Verif
