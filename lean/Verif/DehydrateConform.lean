import Verif.DehydrateLemmas

/-! # Dehydration succeeds on conforming trees only -/

set_option linter.unusedSectionVars false
set_option linter.unusedSimpArgs false

namespace Verif.Dehydrate

variable {reg : Registry Term} {isIri : String → Bool}

/-- What is assumed of the recursive call. -/
def RecConf (reg : Registry Term) (isIri : String → Bool) (rec : Rec) : Prop :=
  ∀ v g ref ins s s', rec v g ref ins s = (.ok (), s') → Conforms reg isIri ref v

theorem conf_subValue {rec : Rec} (hrec : RecConf reg isIri rec) {graph : Option IRes} {fmt : ValueFormat Term}
    {env : Env IRes} {v : Value} {s s' : DeState} (h : subValue rec graph fmt env v s = (.ok (), s')) :
    Conforms reg isIri fmt.layout v := by
  unfold subValue at h
  rw [DeM.bind_eq_ok] at h
  obtain ⟨ins, s1, -, h⟩ := h
  rw [DeM.bind_eq_ok] at h
  obtain ⟨g, s2, -, h⟩ := h
  exact hrec _ _ _ _ _ _ h

theorem conf_variants {rec : Rec} (hrec : RecConf reg isIri rec) {graph : Option IRes} {env : Env IRes} {v : Value}
    {vs : List (Variant Term)} {sel : Option (List (Quad IRes))} {s s' : DeState}
    (h : variants rec graph env v vs sel s = (.ok (), s')) :
    sel.isSome ∨ ∃ x ∈ vs, Conforms reg isIri x.value.layout v := by
  induction vs generalizing sel s with
  | nil =>
    cases sel with
    | none => simp [variants, DeM.fail] at h
    | some _ => exact .inl rfl
  | cons x vs ih =>
    unfold variants at h
    rw [intro_bind, DeM.bind_eq_ok] at h
    obtain ⟨quads, s1, -, h⟩ := h
    split at h
    · rename_i a s2 hs
      exact .inr ⟨x, List.mem_cons_self .., conf_subValue hrec hs⟩
    · rcases ih h with h | ⟨y, hy, hc⟩
      · exact .inl h
      · exact .inr ⟨y, List.mem_cons_of_mem _ hy, hc⟩
    · simp at h
    · simp at h

theorem mem_of_lookup {key : Value} {fields : List (Value × Field Term)} {f : Field Term}
    (h : lookup key fields = some f) : (key, f) ∈ fields := by
  unfold lookup at h
  rw [Option.map_eq_some_iff] at h
  obtain ⟨e, he, rfl⟩ := h
  have h1 := List.find?_some he
  simp only [beq_iff_eq] at h1
  subst h1
  exact List.mem_of_find?_eq_some he

theorem conf_entries {rec : Rec} (hrec : RecConf reg isIri rec) {graph : Option IRes} {env : Env IRes}
    {fields : List (Value × Field Term)} {m : List (Value × Value)} {s s' : DeState}
    (h : entries rec graph env fields m s = (.ok (), s')) :
    ∀ k v, (k, v) ∈ m → ∃ f, lookup k fields = some f ∧ Conforms reg isIri f.value.layout v := by
  induction m generalizing s with
  | nil => simp
  | cons e m ih =>
    obtain ⟨key, v⟩ := e
    unfold entries at h
    cases hl : lookup key fields with
    | none => rw [hl] at h; simp [DeM.fail] at h
    | some f =>
      rw [hl] at h
      simp only at h
      rw [intro_bind, DeM.bind_eq_ok] at h
      obtain ⟨_, s1, -, h⟩ := h
      rw [DeM.bind_eq_ok] at h
      obtain ⟨_, s2, h1, h⟩ := h
      intro k' v' hm
      rcases List.mem_cons.1 hm with hm | hm
      · simp only [Prod.mk.injEq] at hm
        obtain ⟨rfl, rfl⟩ := hm
        exact ⟨f, hl, conf_subValue hrec h1⟩
      · exact ih h k' v' hm

theorem conf_requireKeys {ref : Term} {m : List (Value × Value)} {fields : List (Value × Field Term)}
    {s s' : DeState} (h : requireKeys ref m fields s = (.ok (), s')) :
    ∀ k f, (k, f) ∈ fields → f.required = true → ∃ v, (k, v) ∈ m := by
  induction fields with
  | nil => simp
  | cons e fs ih =>
    obtain ⟨key, field⟩ := e
    unfold requireKeys at h
    split at h
    · simp [DeM.fail] at h
    · rename_i hc
      intro k f hm hr
      rcases List.mem_cons.1 hm with hm | hm
      · simp only [Prod.mk.injEq] at hm
        obtain ⟨rfl, rfl⟩ := hm
        rw [hr] at hc
        simp only [Bool.true_and, Bool.not_eq_true', Bool.not_eq_false, List.any_eq_true, beq_iff_eq] at hc
        obtain ⟨⟨k', v⟩, hm', rfl⟩ := hc
        exact ⟨v, hm'⟩
      · exact ih h k f hm hr

theorem conf_items {rec : Rec} (hrec : RecConf reg isIri rec) {graph : Option IRes} {env : Env IRes}
    {item : ItemLayout Term} {vs : List Value} {s s' : DeState}
    (h : items rec graph env item vs s = (.ok (), s')) : ∀ v ∈ vs, Conforms reg isIri item.value.layout v := by
  induction vs generalizing s with
  | nil => simp
  | cons v vs ih =>
    unfold items at h
    rw [intro_bind, DeM.bind_eq_ok] at h
    obtain ⟨_, s1, -, h⟩ := h
    rw [DeM.bind_eq_ok] at h
    obtain ⟨_, s2, h1, h⟩ := h
    exact List.forall_mem_cons.2 ⟨conf_subValue hrec h1, ih h⟩

theorem conf_nodes {rec : Rec} (hrec : RecConf reg isIri rec) {graph : Option IRes} {env : Env IRes}
    {node : ItemLayout Term} {tail : Pattern Term} {head : IRes} {vs : List Value} {s s' : DeState}
    (h : nodes rec graph env node tail head vs s = (.ok (), s')) :
    ∀ v ∈ vs, Conforms reg isIri node.value.layout v := by
  induction vs generalizing s head with
  | nil => simp
  | cons v vs ih =>
    unfold nodes at h
    rw [DeM.bind_eq_ok] at h
    obtain ⟨_, s0, -, h⟩ := h
    rw [intro_bind, DeM.bind_eq_ok] at h
    obtain ⟨_, s1, -, h⟩ := h
    rw [DeM.bind_eq_ok] at h
    obtain ⟨_, s2, h1, h⟩ := h
    exact List.forall_mem_cons.2 ⟨conf_subValue hrec h1, ih h⟩

theorem conf_sizedItems {rec : Rec} (hrec : RecConf reg isIri rec) {graph : Option IRes} {env : Env IRes}
    {vs : List Value} {is : List (ItemLayout Term)} {s s' : DeState}
    (h : sizedItems rec graph env vs is s = (.ok (), s')) :
    vs.length = is.length ∧ ∀ e ∈ is.zip vs, Conforms reg isIri e.1.value.layout e.2 := by
  induction vs generalizing s is with
  | nil =>
    cases is with
    | nil => simp
    | cons _ _ => simp [sizedItems, DeM.fail] at h
  | cons v vs ih =>
    cases is with
    | nil => simp [sizedItems, DeM.fail] at h
    | cons i is =>
      unfold sizedItems at h
      rw [intro_bind, DeM.bind_eq_ok] at h
      obtain ⟨_, s1, -, h⟩ := h
      rw [DeM.bind_eq_ok] at h
      obtain ⟨_, s2, h1, h⟩ := h
      have := ih h
      refine ⟨by simp [this.1], ?_⟩
      rw [List.zip_cons_cons]
      exact List.forall_mem_cons.2 ⟨conf_subValue hrec h1, this.2⟩

theorem conf_layout (c : DeCtx) (hd : c.reg.DistinctKeys) {rec : Rec} (hrec : RecConf c.reg c.isIri rec) {v : Value}
    {graph : Option IRes} {ref : Term} {inputs : List IRes} {l : Layout Term} (hl : c.reg ref = some l)
    {s s' : DeState} (h : layout c rec v graph ref inputs l s = (.ok (), s')) : Conforms c.reg c.isIri ref v := by
  cases l with
  | never => simp [layout, DeM.fail] at h
  | always => exact .always _ hl
  | unit l =>
    simp only [layout] at h
    split at h
    · rename_i hv; subst hv; exact .unit hl
    · simp [DeM.fail] at h
  | boolean l =>
    simp only [layout] at h
    split at h
    · exact .boolean _ hl
    · simp [DeM.fail] at h
  | number l =>
    simp only [layout] at h
    split at h
    · exact .number _ hl
    · simp [DeM.fail] at h
  | byteString l =>
    simp only [layout] at h
    split at h
    · exact .byteString _ hl
    · simp [DeM.fail] at h
  | textString l =>
    simp only [layout] at h
    split at h
    · exact .textString _ hl
    · simp [DeM.fail] at h
  | id l =>
    simp only [layout] at h
    split at h
    · unfold ident at h
      rw [intro_bind, DeM.bind_eq_ok] at h
      obtain ⟨_, s1, -, h⟩ := h
      rw [DeM.bind_eq_ok] at h
      obtain ⟨_, s2, -, h⟩ := h
      split at h
      · rename_i hi; exact .id _ hl hi
      · simp [DeM.fail] at h
    · simp [DeM.fail] at h
  | sum l =>
    simp only [layout] at h
    rw [intro_bind, DeM.bind_eq_ok] at h
    obtain ⟨_, s1, -, h⟩ := h
    rcases conf_variants hrec h with h | ⟨x, hx, hc⟩
    · simp at h
    · exact .sum x _ hl hx hc
  | product l =>
    simp only [layout] at h
    split at h
    · rw [intro_bind, DeM.bind_eq_ok] at h
      obtain ⟨_, s1, -, h⟩ := h
      rw [DeM.bind_eq_ok] at h
      obtain ⟨_, s2, h1, h⟩ := h
      have he := conf_entries hrec h1
      refine .product _ hl ?_ ?_ (conf_requireKeys h)
      · intro k v hm
        obtain ⟨f, hf, -⟩ := he k v hm
        exact ⟨f, mem_of_lookup hf⟩
      · intro k v f hm hf
        obtain ⟨f', hf', hc⟩ := he k v hm
        have : f = f' := by
          have h1 := hd ref l hl
          have h2 := mem_of_lookup hf'
          exact (List.inj_on_of_nodup_map h1 hf h2 rfl |> Prod.mk.inj).2
        subst this
        exact hc
    · simp [DeM.fail] at h
  | unordered l =>
    simp only [layout] at h
    split at h
    · rw [intro_bind, DeM.bind_eq_ok] at h
      obtain ⟨_, s1, -, h⟩ := h
      exact .unordered _ hl (conf_items hrec h)
    · simp [DeM.fail] at h
  | ordered l =>
    simp only [layout] at h
    split at h
    · rw [intro_bind, DeM.bind_eq_ok] at h
      obtain ⟨_, s1, -, h⟩ := h
      rw [DeM.bind_eq_ok] at h
      obtain ⟨_, s2, -, h⟩ := h
      exact .ordered _ hl (conf_nodes hrec h)
    · simp [DeM.fail] at h
  | sized l =>
    simp only [layout] at h
    split at h
    · rw [intro_bind, DeM.bind_eq_ok] at h
      obtain ⟨_, s1, -, h⟩ := h
      have := conf_sizedItems hrec h
      exact .sized _ hl this.1 this.2
    · simp [DeM.fail] at h

/-- Dehydration succeeds on conforming trees only. -/
theorem conf_dehydrateWith (c : DeCtx) (hd : c.reg.DistinctKeys) (n : Nat) :
    RecConf c.reg c.isIri (dehydrateWith c n) := by
  induction n with
  | zero => intro v g ref ins s s' h; simp [dehydrateWith] at h
  | succ n ih =>
    intro v g ref ins s s' h
    unfold dehydrateWith at h
    cases hl : c.reg ref with
    | none => rw [hl] at h; simp [DeM.fail] at h
    | some l =>
      rw [hl] at h
      simp only at h
      split at h
      · simp [DeM.fail] at h
      · exact conf_layout c hd ih hl h

end Verif.Dehydrate
