import Verif.RoundTripHydrate

/-!
# The variants that do not apply

Hydrating a sum tries every variant. The variants that were not written are passed over: what they state, or require, is
missing.
-/

set_option linter.unusedSectionVars false
set_option linter.unusedSimpArgs false

namespace Verif.RoundTrip

open Dehydrate

variable {c : DeCtx} {F : DeState} {N Occ : IRes → Prop} {f : IRes → Term} {D : List (Quad Term)} {S : Term → Prop}
variable {hc : HyCtx Term}

theorem required_none (hD : hc.ds.Nodup) (frag : DataFragment Term) {σ : Subst Term} {pats : List (QuadPat Term)}
    (hd : Declared σ (withDefaultGraph pats none)) (h : ∀ τ, ¬ IsMatch hc.ds σ (inGraph none pats) τ) :
    ∃ e, Hydrate.requiredMatch hc frag σ pats none = .err e := by
  have := (Props.C02_into_unique hc.ds σ (withDefaultGraph pats none) hD hd).1.2 (by rw [← inGraph_eq]; exact h)
  refine ⟨.missingData frag, ?_⟩
  rw [Hydrate.requiredMatch, Matching.intoRequiredUnique, this]
  rfl

theorem const_declared {t : Term} {ds : List (QuadPat Term)} (h : ConstPats ds) :
    Declared [some t] (withDefaultGraph ds none) :=
  declared_of_below (const_below h 0) (by simp)

theorem const_no_match {t p o : Term} {ds : List (QuadPat Term)}
    (hm : (⟨.var 0, .res p, .res o, none⟩ : QuadPat Term) ∈ ds) (h : (⟨t, p, o, none⟩ : Quad Term) ∉ D) (τ : Subst Term) :
    ¬ IsMatch D [some t] (inGraph none ds) τ := by
  rw [inGraph_none]
  intro hτ
  have h0 := hτ.keeps 0 t rfl
  obtain ⟨⟨s, p', o', g⟩, hq, h1, h2, h3, h4⟩ := hτ.sat _ hm
  replace h1 : τ.get 0 = some s := h1
  replace h2 : p' = p := h2
  replace h3 : o' = o := h3
  replace h4 : g = none := by
    cases g with
    | none => rfl
    | some g => exact absurd h4 (by simp)
  rw [h0] at h1
  obtain rfl := Option.some.inj h1
  subst h2 h3 h4
  exact h hq

/-- Constant patterns are all there, or one is missing. -/
theorem const_cases {t : Term} (D : List (Quad Term)) {ds : List (QuadPat Term)} (h : ConstPats ds) :
    (∀ p o, (⟨.var 0, .res p, .res o, none⟩ : QuadPat Term) ∈ ds → (⟨t, p, o, none⟩ : Quad Term) ∈ D) ∨
    ∀ τ, ¬ IsMatch D [some t] (inGraph none ds) τ := by
  by_cases h' : ∀ p o, (⟨.var 0, .res p, .res o, none⟩ : QuadPat Term) ∈ ds → (⟨t, p, o, none⟩ : Quad Term) ∈ D
  · exact .inl h'
  · simp only [not_forall] at h'
    obtain ⟨p, o, h1, h2⟩ := h'
    exact .inr (const_no_match h1 h2)

/-- The variant `y` is passed over when hydrating `t`. -/
def Fails (hc : HyCtx Term) (t : Term) (y : Variant Term) : Prop :=
  ∀ frag m, 2 ≤ m → Hydrate.uniqueMatch hc frag [some t] y.dataset none = .ok none ∨
    (Hydrate.uniqueMatch hc frag [some t] y.dataset none = .ok (some [some t]) ∧
      ∃ e, Hydrate.subValue (Hydrate.hydrate hc m) none y.value [some t] = .err e)

theorem unique_cases (hD : hc.ds.Nodup) {t : Term} {ds : List (QuadPat Term)} (h : ConstPats ds) (frag : DataFragment Term) :
    Hydrate.uniqueMatch hc frag [some t] ds none = .ok none ∨
    Hydrate.uniqueMatch hc frag [some t] ds none = .ok (some [some t]) := by
  rcases const_cases (t := t) hc.ds h with h' | h'
  · right
    rw [Hydrate.uniqueMatch_eq_some hc hD _ _ _ _ (const_declared h)]
    exact match_const h h'
  · left
    rw [Hydrate.uniqueMatch_eq_none hc hD _ _ _ _ (const_declared h)]
    exact h'

theorem sub_err {rec : Hydrate.Rec Term} {fmt : ValueFormat Term} (hv : fmt.IsVar 0) {t : Term} {e : HyError Term}
    (h : rec none fmt.layout [t] = .err e) : Hydrate.subValue rec none fmt [some t] = .err e := by
  unfold Hydrate.subValue
  rw [hv.1, hv.2]
  exact h

theorem fails_of_err (hD : hc.ds.Nodup) {t : Term} {y : Variant Term} (h : ConstPats y.dataset) (hv : y.value.IsVar 0)
    (he : ∀ n, 1 ≤ n → ∃ e, Hydrate.hydrate hc (n + 1) none y.value.layout [t] = .err e) : Fails hc t y := by
  intro frag m hm
  rcases unique_cases hD (t := t) h frag with h' | h'
  · exact .inl h'
  · obtain ⟨n, rfl⟩ : ∃ n, m = n + 1 := ⟨m - 1, by omega⟩
    obtain ⟨e, he⟩ := he n (by omega)
    exact .inr ⟨h', e, sub_err hv he⟩

theorem variants_fails (rec : Hydrate.Rec Term) {t : Term} (ref : Term) {ys : List (Variant Term)}
    (h : ∀ y ∈ ys, ∀ frag, Hydrate.uniqueMatch hc frag [some t] y.dataset none = .ok none ∨
      (Hydrate.uniqueMatch hc frag [some t] y.dataset none = .ok (some [some t]) ∧
        ∃ e, Hydrate.subValue rec none y.value [some t] = .err e))
    (zs : List (Variant Term)) (i : Nat) (sel : Option (Nat × TypedValue Term)) :
    Hydrate.variants hc rec none ref [some t] i (ys ++ zs) sel =
      Hydrate.variants hc rec none ref [some t] (i + ys.length) zs sel := by
  induction ys generalizing i with
  | nil => rfl
  | cons y ys ih =>
    rw [List.forall_mem_cons] at h
    have hstep : Hydrate.variants hc rec none ref [some t] i (y :: (ys ++ zs)) sel =
        Hydrate.variants hc rec none ref [some t] (i + 1) (ys ++ zs) sel := by
      simp only [Hydrate.variants]
      rcases h.1 (.variant ref y.name) with h' | ⟨h', e, he⟩
      · rw [h']; rfl
      · rw [h']
        simp only [Out.bind_ok, he]
    rw [List.cons_append, hstep, ih h.2, List.length_cons, Nat.add_assoc, Nat.add_comm 1]

/-! ## What is missing -/

theorem Named.lacks (h : Named F N Occ f D) {r : IRes} (ho : Occ r) {p : Term} (hl : Lacks F N r p) (z : Term) :
    (⟨f r, p, z, none⟩ : Quad Term) ∉ D := by
  intro hz
  rcases hl with ⟨hN, hl⟩ | ⟨lit, hl⟩
  · obtain ⟨x, hx, -⟩ := (h.mem hN ho).1 hz
    exact hl x hx
  · exact h.literals _ hz rfl lit (h.assigned _ _ hl)

theorem Named.absent (h : Named F N Occ f D) {r : IRes} (ho : Occ r) {p o : Term} (ha : Absent F N r p o) :
    (⟨f r, p, o, none⟩ : Quad Term) ∉ D := by
  intro hz
  rcases ha with ⟨hN, hl⟩ | ⟨lit, hl⟩
  · obtain ⟨x, hx, e⟩ := (h.mem hN ho).1 hz
    obtain ⟨t, rfl, ht⟩ := hl x hx
    rw [h.term] at e
    exact ht e.symm
  · exact h.literals _ hz rfl lit (h.assigned _ _ hl)

/-- A missing statement. -/
theorem err_statement (hD : hc.ds.Nodup) {xsd : Xsd} {ref t p o : Term} {l : Layout Term} (hl : hc.reg ref = some l)
    (ht : l.Tree hc.reg xsd) (hm : (⟨.var 0, .res p, .res o, none⟩ : QuadPat Term) ∈ l.statements)
    (h : (⟨t, p, o, none⟩ : Quad Term) ∉ hc.ds) (n : Nat) : ∃ e, Hydrate.hydrate hc (n + 1) none ref [t] = .err e := by
  have key : ∀ ds, ConstPats ds → (⟨.var 0, .res p, .res o, none⟩ : QuadPat Term) ∈ ds → ∀ frag,
      ∃ e, Hydrate.requiredMatch hc frag ((Subst.fromInputs [t]).intro 0) ds none = .err e :=
    fun ds hds hmem frag => required_none hD frag (const_declared hds) (const_no_match hmem h)
  cases l with
  | unit l =>
    rw [hydrate_succ hl (by rintro k ⟨⟩; rfl)]
    simp only [Hydrate.layout]
    rw [ht.1]
    obtain ⟨e, he⟩ := key _ ht.2 hm (.discriminant ref)
    exact ⟨e, by rw [he]; rfl⟩
  | product l =>
    rw [hydrate_succ hl (by rintro k ⟨⟩; exact ht.input)]
    simp only [Hydrate.layout]
    rw [ht.intro]
    obtain ⟨e, he⟩ := key _ ht.const hm (.discriminant ref)
    exact ⟨e, by rw [he]; rfl⟩
  | sized l =>
    rw [hydrate_succ hl (by rintro k ⟨⟩; exact ht.1)]
    simp only [Hydrate.layout]
    rw [ht.2.1]
    obtain ⟨e, he⟩ := key _ ht.2.2.1 hm (.discriminant ref)
    exact ⟨e, by rw [he]; rfl⟩
  | sum l =>
    rw [hydrate_succ hl (by rintro k ⟨⟩; exact ht.input)]
    simp only [Hydrate.layout]
    rw [ht.intro]
    obtain ⟨e, he⟩ := key _ ht.const hm (.discriminant ref)
    exact ⟨e, by rw [he]; rfl⟩
  | _ => simp [Layout.statements] at hm

/-- The match of the constant patterns of a layout gives nothing new, or fails. -/
theorem required_cases (hD : hc.ds.Nodup) {t : Term} {ds : List (QuadPat Term)} (h : ConstPats ds) (frag : DataFragment Term) :
    Hydrate.requiredMatch hc frag ((Subst.fromInputs [t]).intro 0) ds none = .ok [some t] ∨
    ∃ e, Hydrate.requiredMatch hc frag ((Subst.fromInputs [t]).intro 0) ds none = .err e := by
  rcases const_cases (t := t) hc.ds h with h' | h'
  · exact .inl (required_const hD frag h h')
  · exact .inr (required_none hD frag (const_declared h) h')

/-- A record without any of its properties, when one is required. -/
theorem fields_err (hD : hc.ds.Nodup) {rec : Hydrate.Rec Term} (ref : Term) {t : Term} {fs : List (Value × Field Term)}
    (h : ∀ e ∈ fs, ∃ p, e.2.IsLink p ∧ ∀ z, (⟨t, p, z, none⟩ : Quad Term) ∉ hc.ds) (hr : ∃ e ∈ fs, e.2.required = true) :
    ∃ e, Hydrate.fields hc rec none ref [some t] fs = .err e := by
  induction fs with
  | nil => simp at hr
  | cons e fs ih =>
    obtain ⟨key, g⟩ := e
    rw [List.forall_mem_cons] at h
    obtain ⟨⟨p, hp, hz⟩, h2⟩ := h
    have : ∀ frag, Hydrate.uniqueMatch hc frag (Subst.intro [some t] g.intro) g.dataset none = .ok none := by
      intro frag
      rw [hp.1, hp.2.1]
      exact unique_link_none hD frag hz
    simp only [Hydrate.fields, this, Out.bind_ok]
    by_cases hg : g.required = true
    · exact ⟨_, by rw [if_pos hg]⟩
    · rw [if_neg hg]
      refine ih h2 ?_
      obtain ⟨e, he, hre⟩ := hr
      rcases List.mem_cons.1 he with rfl | he
      · exact absurd hre hg
      · exact ⟨e, he, hre⟩

/-- No literal of the right type. -/
theorem data_err {α : Type} (hD : hc.ds.Nodup) {l : DataLayout Term} (hp : l.Plain) (ref t : Term)
    (h : hc.literalsOf t = [] ∨ ∃ text i, hc.literalsOf t = [⟨text, .any i⟩] ∧ i ∉ hc.irisOf l.datatype)
    (parse : String → String → Out (HyError Term) α) (mk : α → TypedLiteral Term) :
    ∃ e, Hydrate.hydrateData hc none ref l [t] parse mk = .err e := by
  obtain ⟨h1, h2, h3⟩ := hp
  refine ⟨.noMatchingLiteral, ?_⟩
  unfold Hydrate.hydrateData
  rw [h1, h2, h3, required_nil hD]
  simp only [Out.bind_ok]
  rw [show Hydrate.resource (.var 0) [some t] = .ok t from rfl]
  simp only [Out.bind_ok]
  rcases h with h | ⟨text, i, h, hi⟩
  · rw [h]; rfl
  · rw [h]
    have : (hc.irisOf l.datatype).any (fun j => i == j) = false := by
      simp only [List.any_eq_false, beq_iff_eq]
      rintro j hj rfl
      exact hi hj
    simp [Hydrate.scanLiterals, this, Out.bind_ok]

/-- What is said about `r` makes the variant `y` fail. -/
theorem skip_fails (hT : TreeSet c S) (le : TypedValue Term → TypedValue Term → Bool) (hN : Named F N Occ f D) {r : IRes}
    (ho : Occ r) {y : Variant Term} (hS : S y.value.layout) (hcp : ConstPats y.dataset) (hv : y.value.IsVar 0)
    (h : Skip c.reg F N r y) : Fails (HyCtx.ofTerms c.reg c.xsd le D) (f r) y := by
  have hD : (HyCtx.ofTerms c.reg c.xsd le D).ds.Nodup := hN.nodup
  obtain ⟨l0, hl0, ht0⟩ := hT.tree _ hS
  cases h with
  | triple p o l' hl hm ha =>
    have hno := hN.absent ho ha
    rw [hl0] at hl
    obtain rfl := Option.some.inj hl
    rcases List.mem_append.1 hm with hm | hm
    · intro frag m _
      left
      rw [Hydrate.uniqueMatch_eq_none _ hD _ _ _ _ (const_declared hcp)]
      exact const_no_match hm hno
    · exact fails_of_err hD hcp hv fun n _ => err_statement (xsd := c.xsd) hD hl0 ht0 hm hno n
  | literal l' d hl hd hr =>
    rw [hl0] at hl
    obtain rfl := Option.some.inj hl
    have hlit : ∀ j, d = .iri j → (HyCtx.ofTerms c.reg c.xsd le D).literalsOf (f r) = [] ∨
        ∃ text i, (HyCtx.ofTerms c.reg c.xsd le D).literalsOf (f r) = [⟨text, .any i⟩] ∧
          i ∉ (HyCtx.ofTerms c.reg c.xsd le D).irisOf d := by
      rintro j rfl
      rcases hr with hr | ⟨text, i, hm, hne⟩
      · left
        have := hN.notLit r hr ho
        change (match f r with | .literal l => [l] | _ => []) = []
        split
        · rename_i l e; exact absurd e (this l)
        · rfl
      · right
        rw [hN.assigned _ _ hm]
        refine ⟨text, i, rfl, ?_⟩
        change i ∉ [j]
        simp only [List.mem_singleton]
        rintro rfl
        exact hne rfl
    refine fails_of_err hD hcp hv fun n _ => ?_
    cases l0 with
    | boolean l =>
      rw [hydrate_succ hl0 (by rintro k ⟨⟩; rfl)]
      simp only [Layout.literalType, Option.some.injEq] at hd
      subst hd
      obtain ⟨e, he⟩ := data_err hD ht0.1 y.value.layout (f r) (hlit _ ht0.2)
        (Hydrate.booleanValue (HyCtx.ofTerms c.reg c.xsd le D)) (.boolean · y.value.layout)
      exact ⟨e, by simp only [Hydrate.layout]; rw [he]; rfl⟩
    | number l =>
      rw [hydrate_succ hl0 (by rintro k ⟨⟩; rfl)]
      simp only [Layout.literalType, Option.some.injEq] at hd
      subst hd
      obtain ⟨i, hi, -⟩ := ht0.2
      obtain ⟨e, he⟩ := data_err hD ht0.1 y.value.layout (f r) (hlit _ hi)
        (Hydrate.numberValue (HyCtx.ofTerms c.reg c.xsd le D)) (.number · y.value.layout)
      exact ⟨e, by simp only [Hydrate.layout]; rw [he]; rfl⟩
    | textString l =>
      rw [hydrate_succ hl0 (by rintro k ⟨⟩; rfl)]
      simp only [Layout.literalType, Option.some.injEq] at hd
      subst hd
      obtain ⟨i, hi⟩ := ht0.2
      obtain ⟨e, he⟩ := data_err hD ht0.1 y.value.layout (f r) (hlit _ hi)
        Hydrate.textStringValue (.textString · y.value.layout)
      exact ⟨e, by simp only [Hydrate.layout]; rw [he]; rfl⟩
    | _ => simp [Layout.literalType] at hd
  | record l hl hf hr =>
    rw [hl0] at hl
    obtain rfl := Option.some.inj hl
    refine fails_of_err hD hcp hv fun n _ => ?_
    rw [hydrate_succ hl0 (by rintro k ⟨⟩; exact ht0.input)]
    simp only [Hydrate.layout]
    rw [ht0.intro]
    rcases required_cases hD (t := f r) ht0.const (.discriminant y.value.layout) with h' | ⟨e, h'⟩
    · rw [h', Out.bind_ok]
      obtain ⟨e, he⟩ := fields_err hD (rec := Hydrate.hydrate (HyCtx.ofTerms c.reg c.xsd le D) n) y.value.layout (t := f r)
        (fs := l.fields) (fun e he => (hf e he).imp fun p hp => ⟨hp.1, hN.lacks ho hp.2⟩) hr
      exact ⟨e, by rw [he]; rfl⟩
    · exact ⟨e, by rw [h']; rfl⟩
  | sized l i is p hl hi hp hlack =>
    rw [hl0] at hl
    obtain rfl := Option.some.inj hl
    refine fails_of_err hD hcp hv fun n _ => ?_
    rw [hydrate_succ hl0 (by rintro k ⟨⟩; exact ht0.1)]
    simp only [Hydrate.layout]
    rw [ht0.2.1]
    rcases required_cases hD (t := f r) ht0.2.2.1 (.discriminant y.value.layout) with h' | ⟨e, h'⟩
    · rw [h', Out.bind_ok, hi]
      obtain ⟨e, he⟩ := required_none hD (.sizedListItem y.value.layout 0) (σ := Subst.intro [some (f r)] 1)
        (declared_of_below (patsBelow_link 2 0 1 p (by omega) (by omega)) (by simp [Subst.intro]))
        (fun τ hτ => by
          obtain ⟨z, -, hz⟩ := match_link.1 hτ
          exact hN.lacks ho hlack z hz)
      exact ⟨e, by simp only [Hydrate.sizedItems]; rw [hp.1, hp.2.1, he]; rfl⟩
    · exact ⟨e, by rw [h']; rfl⟩
  | list l lit hl hlit =>
    rw [hl0] at hl
    obtain rfl := Option.some.inj hl
    obtain ⟨first, rest, tail, hch⟩ := ht0
    refine fails_of_err hD hcp hv fun n hn => ?_
    obtain ⟨n, rfl⟩ : ∃ k, n = k + 1 := ⟨n - 1, by omega⟩
    rw [hydrate_succ hl0 (by rintro k ⟨⟩; exact hch.1)]
    simp only [Hydrate.layout]
    rw [hch.2.1, hch.2.2.1, hch.2.2.2.1, hch.2.2.2.2.1, required_nil hD, Out.bind_ok]
    rw [show Hydrate.resource (.var 0) [some (f r)] = .ok (f r) from rfl, Out.bind_ok,
      show Hydrate.resource (.res (.iri tail)) [some (f r)] = .ok (.iri tail) from rfl, Out.bind_ok]
    obtain ⟨e, he⟩ := required_none hD (.orderedListNode y.value.layout (f r) (.iri tail))
      (σ := [some (f r), some (f r), none, none]) (pats := l.node.dataset)
      (declared_of_below (IsChain.closed hch).1 (by simp))
      (fun τ hτ => by
        obtain ⟨a, b, -, ha, -⟩ := (match_node hch.2.2.2.2.2.2.2.1).1 hτ
        exact hN.lacks ho (.inr ⟨lit, hlit⟩) a ha)
    refine ⟨e, ?_⟩
    unfold Hydrate.nodes
    rw [if_neg (by rw [hN.assigned _ _ hlit]; simp)]
    simp only
    rw [hch.2.2.2.2.2.2.1]
    change ((Hydrate.requiredMatch _ _ [some (f r), some (f r), none, none] _ _).bind _).bind _ = _
    rw [he]
    rfl

end Verif.RoundTrip
