import Verif.DehydrateOut
import Verif.DehydrateFresh
import Mathlib.Logic.Relation

/-! # Causes of the panics of dehydration -/

set_option linter.unusedSectionVars false
set_option linter.unusedSimpArgs false

namespace Verif.Dehydrate

/-- Without cause of panic, no panic. -/
theorem dehydrateWith_no_cause (c : DeCtx) (hc : c.reg.Closed) (n : Nat) (v : Value) (g : Option IRes) (ref : Term)
    (hno : ∀ q, Relation.ReflTransGen (DeVisits c) (ref, v) q → ¬ DeCause c q) (ins : List IRes) (s : DeState) :
    (dehydrateWith c n v g ref ins s).1.Avoid (fun _ => False) True False := by
  induction n generalizing v g ref ins s with
  | zero => exact id
  | succ n ih =>
    refine avoid_dehydrateWith_succ (by simp) (by simp) fun l hl hi => ?_
    refine avoid_layout (hc _ _ hl) hi (fun fmt v' hsub _ _ _ => ih v' _ fmt.layout (fun q hq => ?_) ..) id id (fun _ _ _ => id)
      (fun _ h => hno _ .refl ⟨l, hl, h⟩) s
    exact hno q (.head ⟨l, fmt, hl, hsub, rfl⟩ hq)

/-- No term is assigned to another. -/
def Plain (s : DeState) : Prop := ∀ t t', (IRes.term t, t') ∈ s.terms → t' = t

theorem plain_of_extends {s s' : DeState} (h : ∀ e ∈ s.terms, e ∈ s'.terms) (hp : Plain s') : Plain s :=
  fun t t' hm => hp t t' (h _ hm)

theorem mem_irisOf {s : DeState} (hp : Plain s) {t : Term} {i : String} (h : i ∈ irisOf s (.term t)) : t = .iri i := by
  unfold irisOf at h
  rw [List.mem_append] at h
  rcases h with h | h
  · split at h
    · rename_i e
      simp only [IRes.term.injEq] at e
      simp only [List.mem_singleton] at h
      rw [e, h]
    · simp at h
  · rw [List.mem_filterMap] at h
    obtain ⟨⟨r, t'⟩, hm, h⟩ := h
    split at h
    · rename_i e
      simp only at e
      subst e
      split at h
      · rename_i e
        simp only [Option.some.injEq] at h
        subst h
        exact (hp _ _ hm).symm.trans e
      · simp at h
    · simp at h

/-- The terms after a run contain those before. -/
def KeepsTerms (s s' : DeState) : Prop := ∀ e ∈ s.terms, e ∈ s'.terms

theorem keeps_rel : StepRel KeepsTerms where
  refl s := fun _ h => h
  trans a b c h1 h2 := fun e h => h2 e (h1 e h)
  fresh s := fun _ h => h
  insert s q := fun _ h => h
  assign s r t := fun e h => by
    simp only
    split
    · exact h
    · exact List.mem_append_left _ h

/-- The recursive call succeeded on the value, and the terms were kept until `s'`. -/
def Ran (rec : Rec) (fmt : ValueFormat Term) (v : Value) (s' : DeState) : Prop :=
  ∃ g ins s1 s2, ins.length = fmt.input.length ∧ rec v g fmt.layout ins s1 = (.ok (), s2) ∧ KeepsTerms s2 s'

theorem ran_keeps {rec : Rec} {fmt : ValueFormat Term} {v : Value} {s s' : DeState} (h : Ran rec fmt v s) (hk : KeepsTerms s s') :
    Ran rec fmt v s' := by
  obtain ⟨g, ins, s1, s2, hi, h, h'⟩ := h
  exact ⟨g, ins, s1, s2, hi, h, fun e he => hk e (h' e he)⟩

theorem length_instPatterns {env : Env IRes} {ps : List (Pattern Term)} {ins : List IRes} (h : instPatterns env ps = .ok ins) :
    ins.length = ps.length := by
  unfold instPatterns at h
  induction ps generalizing ins with
  | nil => cases h; rfl
  | cons p ps ih =>
    unfold Out.mapM' at h
    rw [Out.bind_eq_ok] at h
    obtain ⟨r, -, h⟩ := h
    rw [Out.bind_eq_ok] at h
    obtain ⟨rs, h', h⟩ := h
    cases h
    simp [ih h']

theorem ran_subValue {rec : Rec} {graph : Option IRes} {fmt : ValueFormat Term} {env : Env IRes} {v : Value} {s s' : DeState}
    (h : subValue rec graph fmt env v s = (.ok (), s')) : Ran rec fmt v s' := by
  unfold subValue at h
  rw [DeM.bind_eq_ok] at h
  obtain ⟨ins, s1, hi, h⟩ := h
  rw [DeM.bind_eq_ok] at h
  obtain ⟨g, s2, -, h⟩ := h
  simp only [DeM.read, Prod.mk.injEq] at hi
  exact ⟨g, ins, s2, s', length_instPatterns hi.1, h, fun _ h => h⟩

variable {rec : Rec} (hrec : ∀ v g ref ins, (rec v g ref ins).Pres KeepsTerms)
include hrec

theorem ran_items {graph : Option IRes} {env : Env IRes} {item : ItemLayout Term} {vs : List Value} {s s' : DeState}
    (h : items rec graph env item vs s = (.ok (), s')) : ∀ v ∈ vs, Ran rec item.value v s' := by
  induction vs generalizing s with
  | nil => simp
  | cons v vs ih =>
    unfold items at h
    rw [intro_bind, DeM.bind_eq_ok] at h
    obtain ⟨_, s1, -, h⟩ := h
    rw [DeM.bind_eq_ok] at h
    obtain ⟨_, s2, h1, h⟩ := h
    have hk := pres_items keeps_rel hrec graph env item vs s2
    rw [h] at hk
    exact List.forall_mem_cons.2 ⟨ran_keeps (ran_subValue h1) hk, ih h⟩

theorem ran_nodes {graph : Option IRes} {env : Env IRes} {node : ItemLayout Term} {tail : Pattern Term} {head : IRes} {vs : List Value}
    {s s' : DeState} (h : nodes rec graph env node tail head vs s = (.ok (), s')) : ∀ v ∈ vs, Ran rec node.value v s' := by
  induction vs generalizing s head with
  | nil => simp
  | cons v vs ih =>
    unfold nodes at h
    rw [DeM.bind_eq_ok] at h
    obtain ⟨next, s0, -, h⟩ := h
    rw [intro_bind, DeM.bind_eq_ok] at h
    obtain ⟨_, s1, -, h⟩ := h
    rw [DeM.bind_eq_ok] at h
    obtain ⟨_, s2, h1, h⟩ := h
    have hk := pres_nodes keeps_rel hrec graph env node tail next vs s2
    rw [h] at hk
    exact List.forall_mem_cons.2 ⟨ran_keeps (ran_subValue h1) hk, ih h⟩

theorem ran_sizedItems {graph : Option IRes} {env : Env IRes} {vs : List Value} {is : List (ItemLayout Term)} {s s' : DeState}
    (h : sizedItems rec graph env vs is s = (.ok (), s')) : ∀ e ∈ is.zip vs, Ran rec e.1.value e.2 s' := by
  induction vs generalizing s is with
  | nil => simp
  | cons v vs ih =>
    cases is with
    | nil => simp
    | cons i is =>
      unfold sizedItems at h
      rw [intro_bind, DeM.bind_eq_ok] at h
      obtain ⟨_, s1, -, h⟩ := h
      rw [DeM.bind_eq_ok] at h
      obtain ⟨_, s2, h1, h⟩ := h
      have hk := pres_sizedItems keeps_rel hrec graph env vs is s2
      rw [h] at hk
      rw [List.zip_cons_cons]
      exact List.forall_mem_cons.2 ⟨ran_keeps (ran_subValue h1) hk, ih h⟩

theorem ran_entries {graph : Option IRes} {env : Env IRes} {fields : List (Value × Field Term)} {m : List (Value × Value)}
    {s s' : DeState} (h : entries rec graph env fields m s = (.ok (), s')) :
    ∀ k v, (k, v) ∈ m → ∀ f, lookup k fields = some f → Ran rec f.value v s' := by
  induction m generalizing s with
  | nil => simp
  | cons e m ih =>
    obtain ⟨key, w⟩ := e
    unfold entries at h
    cases hf : lookup key fields with
    | some f =>
      simp only [hf] at h
      rw [intro_bind, DeM.bind_eq_ok] at h
      obtain ⟨_, s1, -, h⟩ := h
      rw [DeM.bind_eq_ok] at h
      obtain ⟨_, s2, h1, h⟩ := h
      have hk := pres_entries keeps_rel hrec graph env fields m s2
      rw [h] at hk
      intro k v hm f' hf'
      rcases List.mem_cons.1 hm with e | hm
      · cases e
        rw [hf] at hf'
        cases hf'
        exact ran_keeps (ran_subValue h1) hk
      · exact ih h k v hm f' hf'
    | none => simp [hf, DeM.fail] at h

omit hrec in
theorem lookup_distinct {fields : List (Value × Field Term)} (h : (fields.map Prod.fst).Nodup) {k : Value} {f : Field Term}
    (hm : (k, f) ∈ fields) : lookup k fields = some f := by
  cases hl : lookup k fields with
  | none => exact absurd hl (lookup_of_mem hm)
  | some f' =>
    have := List.inj_on_of_nodup_map h hm (mem_of_lookup hl) rfl
    cases this
    rfl

/-- If a value is written, so is each of its components. -/
theorem ran_layout {c : DeCtx} (hd : c.reg.DistinctKeys) {v : Value} {graph : Option IRes} {ref : Term} {inputs : List IRes}
    {l : Layout Term} (hl : c.reg ref = some l) {s s' : DeState} (h : layout c rec v graph ref inputs l s = (.ok (), s'))
    (hsum : ∀ l', l ≠ .sum l') {fmt : ValueFormat Term} {v' : Value} (hsub : SubCall l v fmt v') : Ran rec fmt v' s' := by
  cases hsub with
  | @product l m k v f hm hf =>
    simp only [layout] at h
    rw [intro_bind, DeM.bind_eq_ok] at h
    obtain ⟨_, s1, -, h⟩ := h
    rw [DeM.bind_eq_ok] at h
    obtain ⟨_, s2, h1, h⟩ := h
    have hk := pres_requireKeys keeps_rel ref m l.fields s2
    rw [h] at hk
    exact ran_keeps (ran_entries hrec h1 k v' hm f (lookup_distinct (hd _ _ hl) hf)) hk
  | unordered hm =>
    simp only [layout] at h
    rw [intro_bind, DeM.bind_eq_ok] at h
    obtain ⟨_, s1, -, h⟩ := h
    exact ran_items hrec h _ hm
  | ordered hm =>
    simp only [layout] at h
    rw [intro_bind, DeM.bind_eq_ok] at h
    obtain ⟨_, s1, -, h⟩ := h
    rw [DeM.bind_eq_ok] at h
    obtain ⟨_, s2, -, h⟩ := h
    exact ran_nodes hrec h _ hm
  | @sized l vs i v hm =>
    simp only [layout] at h
    rw [intro_bind, DeM.bind_eq_ok] at h
    obtain ⟨_, s1, -, h⟩ := h
    exact ran_sizedItems hrec h _ hm
  | @sum l => exact absurd rfl (hsum l)

omit hrec in
theorem data_written {inputs : List IRes} {l : DataLayout Term} {lit : List String → Out DeError RdfLit} {s s' : DeState}
    (h : data inputs l lit s = (.ok (), s')) (hp : Plain s') :
    ∃ iris t, lit iris = .ok t ∧ ∀ i ∈ iris, l.datatype = .iri i := by
  unfold data at h
  rw [intro_bind, DeM.bind_eq_ok] at h
  obtain ⟨_, s1, -, h⟩ := h
  rw [DeM.bind_eq_ok] at h
  obtain ⟨r, s2, -, h⟩ := h
  rw [DeM.bind_eq_ok] at h
  obtain ⟨t, s3, h1, h⟩ := h
  simp only [DeM.read, Prod.mk.injEq] at h1
  obtain ⟨h1, rfl⟩ := h1
  have hk := pres_assign keeps_rel r (.literal t) s2
  rw [h] at hk
  exact ⟨_, t, h1, fun i hi => mem_irisOf (plain_of_extends hk hp) hi⟩

omit hrec in
theorem layout_written {c : DeCtx} {v : Value} {graph : Option IRes} {ref : Term} {inputs : List IRes}
    {l : Layout Term} {s s' : DeState} (h : layout c rec v graph ref inputs l s = (.ok (), s')) (hp : Plain s') :
    ¬ Unwritable c.xsd l v := by
  intro hu
  cases hu with
  | boolean hd =>
    obtain ⟨iris, t, ht, hi⟩ := data_written h hp
    unfold booleanLit at ht
    split at ht
    · rename_i i hf
      have h1 := List.find?_some hf
      simp only [beq_iff_eq] at h1
      subst h1
      exact hd (hi _ (List.mem_of_find?_eq_some hf))
    · cases ht
  | datatype hd =>
    obtain ⟨iris, t, ht, hi⟩ := data_written h hp
    unfold numberLit at ht
    split at ht
    · rename_i i hf
      have h1 := List.find?_some hf
      rw [hd i (hi i (List.mem_of_find?_eq_some hf))] at h1
      cases h1
    · cases ht
  | number hq =>
    obtain ⟨iris, t, ht, hi⟩ := data_written h hp
    unfold numberLit at ht
    rw [hq] at ht
    split at ht <;> cases ht
  | byteString =>
    obtain ⟨iris, t, ht, hi⟩ := data_written h hp
    cases ht
  | text hd =>
    obtain ⟨iris, t, ht, hi⟩ := data_written h hp
    unfold textLit at ht
    split at ht
    · exact hd _ (hi _ List.mem_cons_self)
    · cases ht

omit hrec in
theorem dehydrateWith_ok_cases {c : DeCtx} {n : Nat} {v : Value} {g : Option IRes} {ref : Term} {ins : List IRes} {s s' : DeState}
    (h : dehydrateWith c n v g ref ins s = (.ok (), s')) :
    ∃ m l, n = m + 1 ∧ c.reg ref = some l ∧ layout c (dehydrateWith c m) v g ref ins l s = (.ok (), s') := by
  cases n with
  | zero => simp [dehydrateWith] at h
  | succ m =>
    unfold dehydrateWith at h
    cases hl : c.reg ref with
    | none => simp [hl, DeM.fail] at h
    | some l =>
      simp only [hl] at h
      split at h
      · simp [DeM.fail] at h
      · exact ⟨m, l, rfl, rfl, h⟩

omit hrec in
theorem dehydrateWith_no_cause_of_ok (c : DeCtx) (hd : c.reg.DistinctKeys) {p q : Term × Value}
    (hpq : Relation.ReflTransGen (DeComponent c) p q) (n : Nat) (g : Option IRes) (ins : List IRes) (s s' : DeState)
    (h : dehydrateWith c n p.2 g p.1 ins s = (.ok (), s')) (hp : Plain s') : ¬ DeCause c q := by
  induction hpq using Relation.ReflTransGen.head_induction_on generalizing n g ins s s' with
  | refl =>
    obtain ⟨m, l, rfl, hl, h⟩ := dehydrateWith_ok_cases h
    rintro ⟨l', hl', hu⟩
    rw [hl] at hl'
    cases hl'
    exact layout_written h hp hu
  | head hcomp _ ih =>
    obtain ⟨m, l, rfl, hl, h⟩ := dehydrateWith_ok_cases h
    obtain ⟨l', fmt, hl', hsum, hsub, e⟩ := hcomp
    rw [hl] at hl'
    cases hl'
    obtain ⟨g', ins', s1, s2, -, h2, hk⟩ :=
      ran_layout (fun v g ref ins => pres_dehydrateWith keeps_rel c m v g ref ins) hd hl h hsum hsub
    refine ih m g' ins' s1 s2 ?_ (plain_of_extends hk hp)
    rw [e]
    exact h2

end Verif.Dehydrate
