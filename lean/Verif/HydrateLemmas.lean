import Verif.HydrateSpec
import Verif.MatchingLemmas
import Verif.Props.Matching
import Mathlib.Data.List.Perm.Basic

/-! # Hydration computes the declarative meaning: lemmas -/

set_option linter.unusedSectionVars false
set_option linter.unusedSimpArgs false

namespace Verif

variable {R : Type _} [DecidableEq R]

theorem inGraph_eq (g : Option R) (pats : List (QuadPat R)) : inGraph g pats = withDefaultGraph pats g := by
  unfold inGraph withDefaultGraph
  apply List.map_congr_left
  rintro ⟨s, p, o, qg⟩ _
  cases qg <;> cases g <;> simp

theorem patsVars_withDefaultGraph (g : Option R) (pats : List (QuadPat R)) :
    patsVars (withDefaultGraph pats g) = patsVars pats := by
  unfold patsVars withDefaultGraph
  rw [List.flatMap_map]
  apply List.flatMap_congr
  rintro ⟨s, p, o, qg⟩ _
  cases qg <;> cases g <;> simp [QuadPat.vars, Pattern.vars]

theorem declared_of_below {σ : Subst R} {k : Nat} {pats : List (QuadPat R)} {g : Option R}
    (h : PatsBelow k pats) (hk : k ≤ σ.length) : Declared σ (withDefaultGraph pats g) := by
  intro x hx
  rw [patsVars_withDefaultGraph] at hx
  exact Nat.lt_of_lt_of_le (h x hx) hk

theorem Pattern.value_eq_some {p : Pattern R} {σ : Subst R} {r : R} : p.value σ = some r ↔ p.Denotes σ.get r := by
  cases p with
  | res r' => simp [Pattern.value, Pattern.apply, Pattern.intoResource, Pattern.Denotes]; exact eq_comm
  | var x =>
    simp only [Pattern.value, Pattern.apply, Pattern.Denotes]
    cases h : σ.get x <;> simp [Pattern.intoResource]

theorem Decides.congr {ε α} {x : Out ε α} {P Q : α → Prop} (h : Decides x P) (hpq : ∀ a, P a ↔ Q a) :
    Decides x Q := by
  cases x <;> simp_all [Decides]

theorem Decides.bind {ε α β} {x : Out ε α} {f : α → Out ε β} {P : α → Prop} {Q : α → β → Prop}
    (hx : Decides x P) (hf : ∀ a, x = .ok a → P a → Decides (f a) (Q a)) :
    Decides (x.bind f) (fun b => ∃ a, P a ∧ Q a b) := by
  cases x with
  | ok a =>
    have hP : ∀ b, P b ↔ b = a := hx
    refine (hf a rfl ((hP a).2 rfl)).congr ?_
    intro b
    constructor
    · intro h; exact ⟨a, (hP a).2 rfl, h⟩
    · rintro ⟨a', h, h'⟩; rw [(hP a').1 h] at h'; exact h'
  | err e =>
    have hP : ∀ b, ¬ P b := hx
    rintro b ⟨a, h, -⟩
    exact hP a h
  | panic => trivial
  | fuel => trivial

theorem Decides.map {ε α β} {x : Out ε α} {f : α → β} {P : α → Prop} (hx : Decides x P) :
    Decides (x.map f) (fun b => ∃ a, P a ∧ b = f a) := by
  cases x with
  | ok a =>
    have hP : ∀ b, P b ↔ b = a := hx
    intro b
    constructor
    · rintro ⟨a', h, rfl⟩; rw [(hP a').1 h]
    · rintro rfl; exact ⟨a, (hP a).2 rfl, rfl⟩
  | err e =>
    have hP : ∀ b, ¬ P b := hx
    rintro b ⟨a, h, -⟩
    exact hP a h
  | panic => trivial
  | fuel => trivial

theorem decides_ok {ε α} (a : α) : Decides (.ok a : Out ε α) (fun b => b = a) := fun _ => Iff.rfl

namespace Hydrate

variable (c : HyCtx R)

theorem decides_required (hds : c.ds.Nodup) (frag : DataFragment R) (σ : Subst R) (pats : List (QuadPat R))
    (g : Option R) (hd : Declared σ (withDefaultGraph pats g)) :
    Decides (requiredMatch c frag σ pats g) (UniqueMatch c.ds σ (inGraph g pats)) := by
  obtain ⟨h1, h2, h3⟩ := Props.C02_into_required_unique c.ds σ (withDefaultGraph pats g) hds hd
  rw [inGraph_eq]
  unfold requiredMatch
  rcases h : Matching.intoRequiredUnique c.ds (Matching.new σ (withDefaultGraph pats g)) with τ | e | _ | _
  · obtain ⟨hm, hu⟩ := (h1 τ).1 h
    intro b
    constructor
    · rintro ⟨hb, -⟩; exact hu b hb
    · rintro rfl; exact ⟨hm, hu⟩
  · rintro b ⟨hb, hu⟩
    have := (h1 b).2 ⟨hb, hu⟩
    rw [h] at this; simp at this
  · trivial
  · trivial

theorem decides_unique (hds : c.ds.Nodup) (frag : DataFragment R) (σ : Subst R) (pats : List (QuadPat R))
    (g : Option R) (hd : Declared σ (withDefaultGraph pats g)) :
    Decides (uniqueMatch c frag σ pats g) (fun o => match o with
      | some τ => UniqueMatch c.ds σ (inGraph g pats) τ
      | none => ∀ τ, ¬ IsMatch c.ds σ (inGraph g pats) τ) := by
  obtain ⟨h1, h2, h3⟩ := Props.C02_into_unique c.ds σ (withDefaultGraph pats g) hds hd
  rw [inGraph_eq]
  unfold uniqueMatch
  rcases h : Matching.intoUnique c.ds (Matching.new σ (withDefaultGraph pats g)) with (_ | τ) | e | _ | _
  · have hn := h1.1 h
    intro b
    cases b with
    | none => simpa using hn
    | some τ => simp only [UniqueMatch, reduceCtorEq, iff_false, not_and]; intro hm; exact absurd hm (hn τ)
  · obtain ⟨hm, hu⟩ := (h2 τ).1 h
    intro b
    cases b with
    | none => simp only [reduceCtorEq, iff_false, not_forall, not_not]; exact ⟨τ, hm⟩
    | some τ' =>
      simp only [Option.some.injEq]
      constructor
      · rintro ⟨hb, -⟩; exact hu _ hb
      · rintro rfl; exact ⟨hm, hu⟩
  · intro b hb
    cases b with
    | none =>
      have := h1.2 hb
      rw [h] at this; simp at this
    | some τ =>
      have := (h2 τ).2 ⟨hb.1, hb.2⟩
      rw [h] at this; simp at this
  · trivial
  · trivial

theorem uniqueMatch_err (hds : c.ds.Nodup) (frag : DataFragment R) (σ : Subst R) (pats : List (QuadPat R))
    (g : Option R) (hd : Declared σ (withDefaultGraph pats g)) {e}
    (h : uniqueMatch c frag σ pats g = .err e) :
    ∃ τ τ', IsMatch c.ds σ (inGraph g pats) τ ∧ IsMatch c.ds σ (inGraph g pats) τ' ∧ τ ≠ τ' := by
  obtain ⟨h1, h2, h3⟩ := Props.C02_into_unique c.ds σ (withDefaultGraph pats g) hds hd
  rw [inGraph_eq]
  rw [← h3]
  unfold uniqueMatch at h
  rcases h' : Matching.intoUnique c.ds (Matching.new σ (withDefaultGraph pats g)) with a | e' | _ | _
  · rw [h'] at h; simp [Out.mapErr] at h
  · cases e' with
    | ambiguity => rfl
    | empty =>
      rw [Matching.intoUnique_eq _ _ _ hd] at h'
      split at h' <;> simp at h'
  · rw [h'] at h; simp [Out.mapErr] at h
  · rw [h'] at h; simp [Out.mapErr] at h

theorem decides_resource (p : Pattern R) (σ : Subst R) : Decides (resource p σ) (p.Denotes σ.get) := by
  unfold resource
  cases h : p.value σ with
  | none => trivial
  | some r =>
    intro b
    rw [← Pattern.value_eq_some, h]
    simp only [Option.some.injEq]
    exact eq_comm

theorem decides_mapM' {α β ε} (f : α → Out ε β) (P : α → β → Prop) (l : List α)
    (h : ∀ a ∈ l, Decides (f a) (P a)) : Decides (Out.mapM' f l) (List.Forall₂ P l) := by
  induction l with
  | nil =>
    intro b
    simp
  | cons a l ih =>
    simp only [Out.mapM']
    have h1 := h a (by simp)
    have h2 := ih (fun a ha => h a (by simp [ha]))
    refine (h1.bind (Q := fun b bs => ∃ bs', List.Forall₂ P l bs' ∧ bs = b :: bs') fun b _ _ =>
      h2.bind (Q := fun bs' bs => bs = b :: bs') fun bs _ _ => decides_ok _).congr ?_
    intro bs
    constructor
    · rintro ⟨b, hb, bs', hbs', rfl⟩; exact .cons hb hbs'
    · intro h
      cases h with
      | cons hb hbs => exact ⟨_, hb, _, hbs, rfl⟩

theorem decides_selectInputs (ps : List (Pattern R)) (σ : Subst R) :
    Decides (selectInputs ps σ) (List.Forall₂ (fun p r => p.Denotes σ.get r) ps) :=
  decides_mapM' _ _ _ fun p _ => decides_resource p σ

theorem decides_selectGraph (g : Option R) (pat : Option (Option (Pattern R))) (σ : Subst R) :
    Decides (selectGraph g pat σ) (GraphDenotes g pat σ) := by
  unfold selectGraph GraphDenotes
  split
  · exact decides_ok _
  · exact decides_ok _
  · exact (decides_resource _ σ).map

theorem decides_subValue (rec : Rec R) (M) (hrec : ∀ g r i, Decides (rec g r i) (M g r i))
    (g : Option R) (fmt : ValueFormat R) (σ : Subst R) :
    Decides (subValue rec g fmt σ) (SubMeaning M g fmt σ) := by
  unfold subValue
  refine ((decides_selectInputs fmt.input σ).bind
    (Q := fun ins v => ∃ g', GraphDenotes g fmt.graph σ g' ∧ M g' fmt.layout ins v) fun ins _ _ =>
    (decides_selectGraph g fmt.graph σ).bind (Q := fun g' v => M g' fmt.layout ins v) fun g' _ _ =>
      hrec g' fmt.layout ins).congr ?_
  intro v
  constructor
  · rintro ⟨ins, h1, g', h2, h3⟩; exact ⟨ins, g', h1, h2, h3⟩
  · rintro ⟨ins, g', h1, h2, h3⟩; exact ⟨ins, h1, g', h2, h3⟩

theorem length_intro (σ : Subst R) (k : Nat) : (σ.intro k).length = σ.length + k := by
  simp [Subst.intro]

/-- The loop over literals, when it does not panic. -/
theorem scanLiterals_spec {α} (parse : String → String → Out (HyError R) α) (types : List String)
    (ls : List RdfLit) (value : Option α) :
    match scanLiterals parse types ls value with
    | .ok none => value = none ∧ ls.filter (fun lit => types.any fun j => lit.type == .any j) = []
    | .ok (some v) =>
      (value = some v ∧ ls.filter (fun lit => types.any fun j => lit.type == .any j) = []) ∨
      (value = none ∧ ∃ lit i, ls.filter (fun lit => types.any fun j => lit.type == .any j) = [lit] ∧
        lit.type = .any i ∧ parse lit.value i = .ok v)
    | .err _ => ∀ lit, ls.filter (fun lit => types.any fun j => lit.type == .any j) = [lit] →
        ∀ i, lit.type = .any i → ∀ v, parse lit.value i ≠ .ok v
    | _ => True := by
  induction ls generalizing value with
  | nil => cases value <;> simp [scanLiterals]
  | cons l ls ih =>
    unfold scanLiterals
    cases ht : l.type with
    | langString _ => simp
    | any i =>
      simp only
      by_cases hany : types.any (fun j => i == j)
      · rw [if_pos hany]
        have hf : (types.any fun j => l.type == LitType.any j) = true := by
          rw [ht]; simpa using hany
        cases hp : parse l.value i with
        | ok v =>
          simp only [Out.bind_ok]
          cases value with
          | some _ => simp
          | none =>
            simp only
            have := ih (some v)
            rcases e : scanLiterals parse types ls (some v) with (_ | v') | e' | _ | _ <;> rw [e] at this
            · simp at this
            · simp only [reduceCtorEq, false_and, or_false, Option.some.injEq] at this
              obtain ⟨rfl, hnil⟩ := this
              simp only [true_and, reduceCtorEq, false_and, false_or]
              refine ⟨l, i, ?_, ht, hp⟩
              simp only [List.filter_cons, hf, if_true, hnil]
            · intro lit hlit
              simp only [List.filter_cons, hf, if_true, if_false, Bool.false_eq_true] at hlit
              simp only [List.cons.injEq] at hlit
              have hnil := hlit.2
              exfalso
              clear this
              -- with an empty rest, the loop cannot fail
              revert e
              have key : ∀ (ls : List RdfLit), ls.filter (fun lit => types.any fun j => lit.type == .any j) = [] →
                  ∀ value e', scanLiterals parse types ls value ≠ .err e' := by
                intro ls
                induction ls with
                | nil => intro _ value e'; simp [scanLiterals]
                | cons l ls ih =>
                  intro h value e'
                  have hn : ¬ (types.any fun j => l.type == LitType.any j) = true := by
                    intro hp
                    simp only [List.filter_cons, hp, if_true, if_false, Bool.false_eq_true] at h
                    simp at h
                  simp only [List.filter_cons, hn, if_true, if_false, Bool.false_eq_true] at h
                  unfold scanLiterals
                  cases ht : l.type with
                  | langString _ => simp
                  | any i =>
                    simp only
                    rw [if_neg (by rw [ht] at hn; simpa using hn)]
                    exact ih h value e'
              exact key ls hnil _ _
            · trivial
            · trivial
        | err e =>
          simp only [Out.bind_err]
          intro lit hlit j hj v hv
          simp only [List.filter_cons, hf, if_true, if_false, Bool.false_eq_true] at hlit
          simp only [List.cons.injEq] at hlit
          obtain ⟨rfl, -⟩ := hlit
          rw [ht] at hj
          simp only [LitType.any.injEq] at hj
          subst hj
          rw [hp] at hv
          simp at hv
        | panic => simp
        | fuel => simp
      · rw [if_neg hany]
        have hf : ¬ (types.any fun j => l.type == LitType.any j) = true := by
          rw [ht]; simpa using hany
        simp only [List.filter_cons, hf, if_true, if_false, Bool.false_eq_true]
        exact ih value

theorem decides_data {α} (hds : c.ds.Nodup) (parse : String → String → Out (HyError R) α)
    (mk : α → TypedLiteral R) (g : Option R) (ref : R) (l : DataLayout R)
    (inputs : List R) (hi : inputs.length = 1) (hc : PatsBelow (1 + l.intro) l.dataset) :
    Decides ((hydrateData c g ref l inputs parse mk).map TypedValue.literal)
      (fun v => ∃ a, DataMeaning c parse g l inputs a ∧ v = .literal (mk a)) := by
  have hd : Declared ((Subst.fromInputs inputs).intro l.intro) (withDefaultGraph l.dataset g) :=
    declared_of_below hc (by simp [length_intro, Subst.fromInputs, hi])
  unfold hydrateData
  have key : Decides ((requiredMatch c (.discriminant ref) ((Subst.fromInputs inputs).intro l.intro) l.dataset g).bind
      fun σ => (resource l.resource σ).bind fun r =>
        (scanLiterals parse (c.irisOf l.datatype) (c.literalsOf r) none).bind fun
          | some v => .ok v
          | none => .err .noMatchingLiteral) (DataMeaning c parse g l inputs) := by
    refine ((decides_required c hds _ _ _ g hd).bind
      (Q := fun σ a => ∃ r, l.resource.Denotes σ.get r ∧ ∃ lit i,
        (c.literalsOf r).filter (fun lit => (c.irisOf l.datatype).any fun j => lit.type == .any j) = [lit] ∧
        lit.type = .any i ∧ parse lit.value i = .ok a) fun σ _ _ =>
      (decides_resource l.resource σ).bind
        (Q := fun r a => ∃ lit i,
        (c.literalsOf r).filter (fun lit => (c.irisOf l.datatype).any fun j => lit.type == .any j) = [lit] ∧
        lit.type = .any i ∧ parse lit.value i = .ok a) fun r _ _ => ?_).congr ?_
    · have hs := scanLiterals_spec parse (c.irisOf l.datatype) (c.literalsOf r) none
      rcases h : scanLiterals parse (c.irisOf l.datatype) (c.literalsOf r) none with (_ | v) | e | _ | _
      · rw [h] at hs
        simp only [Out.bind_ok]
        rintro b ⟨lit, i, h1, -⟩
        rw [hs.2] at h1
        simp at h1
      · rw [h] at hs
        simp only [reduceCtorEq, false_and, true_and, false_or] at hs
        obtain ⟨lit, i, h1, h2, h3⟩ := hs
        simp only [Out.bind_ok]
        intro b
        constructor
        · rintro ⟨lit', i', h1', h2', h3'⟩
          rw [h1] at h1'
          simp only [List.cons.injEq, and_true] at h1'
          subst h1'
          rw [h2] at h2'
          simp only [LitType.any.injEq] at h2'
          subst h2'
          rw [h3] at h3'
          simp only [Out.ok.injEq] at h3'
          exact h3'.symm
        · rintro rfl; exact ⟨lit, i, h1, h2, h3⟩
      · rw [h] at hs
        simp only [Out.bind_err]
        rintro b ⟨lit, i, h1, h2, h3⟩
        exact hs lit h1 i h2 b h3
      · trivial
      · trivial
    · intro a
      unfold DataMeaning
      simp only [inGraph_eq, Subst.fromInputs, Subst.intro]
      constructor
      · rintro ⟨σ, h1, r, h2, lit, i, h3, h4, h5⟩; exact ⟨σ, r, lit, i, h1, h2, h3, h4, h5⟩
      · rintro ⟨σ, r, lit, i, h1, h2, h3, h4, h5⟩; exact ⟨σ, h1, r, h2, lit, i, h3, h4, h5⟩
  have e : (hydrateData c g ref l inputs parse mk).map TypedValue.literal =
      ((requiredMatch c (.discriminant ref) ((Subst.fromInputs inputs).intro l.intro) l.dataset g).bind
      fun σ => (resource l.resource σ).bind fun r =>
        (scanLiterals parse (c.irisOf l.datatype) (c.literalsOf r) none).bind fun
          | some v => .ok v
          | none => .err .noMatchingLiteral).map (fun a => TypedValue.literal (mk a)) := by
    unfold hydrateData
    rcases requiredMatch c (.discriminant ref) ((Subst.fromInputs inputs).intro l.intro) l.dataset g
      with σ | _ | _ | _ <;> simp only [Out.bind_ok, Out.bind_err, Out.bind_panic, Out.bind_fuel, Out.map]
    rcases resource l.resource σ with r | _ | _ | _ <;>
      simp only [Out.bind_ok, Out.bind_err, Out.bind_panic, Out.bind_fuel, Out.map]
    rcases scanLiterals parse (c.irisOf l.datatype) (c.literalsOf r) none with (_ | v) | _ | _ | _ <;>
      simp only [Out.bind_ok, Out.bind_err, Out.bind_panic, Out.bind_fuel, Out.map]
  unfold hydrateData at e
  rw [e]
  exact key.map

end Hydrate

end Verif
