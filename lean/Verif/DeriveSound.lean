import Verif.DeriveLemmas

/-! # Derived deserialization: a value that is read is a meaning of the layout -/

set_option linter.unusedSectionVars false
set_option linter.unusedSimpArgs false

namespace Verif

namespace Derived

variable {R : Type} [DecidableEq R]

section transfer
variable {M M' : Option R → R → List R → TypedValue R → Prop} {P : String → Prop}

theorem subMeaning_transfer {fmt : ValueFormat R} {g : Option R} {σ : Subst R} {v : TypedValue R}
    (h : ∀ g i w, i.length = fmt.input.length → AllIds P w → M g fmt.layout i w → M' g fmt.layout i w)
    (hv : AllIds P v) (hs : SubMeaning M g fmt σ v) : SubMeaning M' g fmt σ v := by
  obtain ⟨ins, g', h1, h2, h3⟩ := hs
  exact ⟨ins, g', h1, h2, h _ _ _ h1.length_eq.symm hv h3⟩

theorem fieldsMeaning_transfer {ds : List (Quad R)} {g : Option R} {σ : Subst R} {fs : List (Value × Field R)}
    {m : List (Value × TypedValue R)}
    (h : ∀ e ∈ fs, ∀ g i w, i.length = e.2.value.input.length → AllIds P w → M g e.2.value.layout i w →
      M' g e.2.value.layout i w)
    (hv : ∀ e ∈ m, AllIds P e.2) (hf : FieldsMeaning ds M g σ fs m) : FieldsMeaning ds M' g σ fs m := by
  induction hf with
  | nil => exact .nil
  | @present key field _ _ w _ h1 h2 _ ih =>
    exact .present h1 (subMeaning_transfer (h (key, field) (by simp)) (hv (key, w) (by simp)) h2)
      (ih (fun e he => h e (by simp [he])) (fun e he => hv e (by simp [he])))
  | absent h1 h2 _ ih => exact .absent h1 h2 (ih (fun e he => h e (by simp [he])) hv)

theorem chainMeaning_transfer {ds : List (Quad R)} {g : Option R} {node : ItemLayout R} {σ : Subst R} {tail head : R}
    {vs : List (TypedValue R)}
    (h : ∀ g i w, i.length = node.value.input.length → AllIds P w → M g node.value.layout i w →
      M' g node.value.layout i w)
    (hv : ∀ v ∈ vs, AllIds P v) (hc : ChainMeaning ds M g node σ tail head vs) :
    ChainMeaning ds M' g node σ tail head vs := by
  induction hc with
  | nil => exact .nil
  | cons h1 h2 h3 h4 _ ih =>
    exact .cons h1 h2 (subMeaning_transfer h (hv _ (by simp)) h3) h4 (ih fun v hv' => hv v (by simp [hv']))

theorem forall₂_imp_right {α β : Type _} {S T : α → β → Prop} {as : List α} {bs : List β}
    (h : List.Forall₂ S as bs) (hi : ∀ a ∈ as, ∀ b ∈ bs, S a b → T a b) : List.Forall₂ T as bs := by
  induction h with
  | nil => exact .nil
  | cons h1 _ ih =>
    exact .cons (hi _ (by simp) _ (by simp) h1) (ih fun a ha b hb => hi a (by simp [ha]) b (by simp [hb]))

theorem AllIds.of_map {m : List (Value × TypedValue R)} {ref : R} (h : AllIds P (.map m ref)) : ∀ e ∈ m, AllIds P e.2 := by
  cases h; assumption

theorem AllIds.of_list {vs : List (TypedValue R)} {ref : R} (h : AllIds P (.list vs ref)) : ∀ v ∈ vs, AllIds P v := by
  cases h; assumption

theorem AllIds.of_variant {v : TypedValue R} {ref : R} {i : Nat} (h : AllIds P (.variant v ref i)) : AllIds P v := by
  cases h; assumption

/-- A strict meaning is a meaning. -/
theorem strictMeaning_transfer {hy : HyCtx R} {g : Option R} {ref : R} {inputs : List R} {v : TypedValue R} {l : Layout R}
    (h : ∀ f ∈ l.formats, ∀ g i w, i.length = f.input.length → AllIds P w → M g f.layout i w → M' g f.layout i w)
    (hv : AllIds P v) (hs : StrictMeaning hy M g ref inputs v l) : LayoutMeaning hy M' g ref inputs v l := by
  cases l with
  | never => exact hs
  | unit l => exact hs
  | boolean l => exact hs
  | number l => exact hs
  | byteString l => exact hs
  | textString l => exact hs
  | id l => exact hs
  | always => exact hs
  | product l =>
    obtain ⟨σ, m, h1, h2, rfl⟩ := hs
    exact ⟨σ, m, h1, fieldsMeaning_transfer
      (fun e he => h _ (by simp only [Layout.formats, List.mem_map]; exact ⟨e, he, rfl⟩)) (AllIds.of_map hv) h2, rfl⟩
  | unordered l =>
    obtain ⟨σ, ms, vs, items, h1, h2, h3, h4, h5, h6, rfl⟩ := hs
    refine ⟨σ, ms, vs, items, h1, h2, h3, ?_, h5, h6, rfl⟩
    exact forall₂_imp_right h4 fun τ _ w hw => subMeaning_transfer (h _ (by simp [Layout.formats]))
      (AllIds.of_list hv w (h5.mem_iff.2 hw))
  | ordered l =>
    obtain ⟨σ, head, tail, items, h1, h2, h3, h4, rfl⟩ := hs
    exact ⟨σ, head, tail, items, h1, h2, h3,
      chainMeaning_transfer (h _ (by simp [Layout.formats])) (AllIds.of_list hv) h4, rfl⟩
  | sized l =>
    obtain ⟨σ, items, h1, h2, rfl⟩ := hs
    refine ⟨σ, items, h1, forall₂_imp_right h2 ?_, rfl⟩
    rintro item hit w hw ⟨σ', h3, h4⟩
    exact ⟨σ', h3, subMeaning_transfer (h _ (by simp only [Layout.formats, List.mem_map]; exact ⟨item, hit, rfl⟩))
      (AllIds.of_list hv w hw) h4⟩
  | sum l =>
    obtain ⟨σ, i, variant, w, h1, h2, ⟨σ', h3, h4⟩, h5, rfl⟩ := hs
    refine ⟨σ, i, variant, w, h1, ?_, h2, ⟨σ', h3, subMeaning_transfer (h _ ?_) (AllIds.of_variant hv) h4⟩, ?_, rfl⟩
    · intro y hy τ τ' hτ hτ'
      obtain ⟨j, hj⟩ := List.getElem?_of_mem hy
      have e := h5 j y τ hj hτ
      rw [e, h2] at hj
      injection hj with e'
      rw [e'] at h3
      rw [h3.2 τ hτ, h3.2 τ' hτ']
    · simp only [Layout.formats, List.mem_map]
      exact ⟨variant, List.mem_of_getElem? h2, rfl⟩
    · rintro j y w' hj ⟨σ'', h6, -⟩
      exact h5 j y σ'' hj h6.1

end transfer

variable (c : DsCtx R)

theorem uniqueMatch_nil (ds : List (Quad R)) (σ : Subst R) : UniqueMatch ds σ [] σ := by
  refine ⟨⟨rfl, fun _ _ h => h, by simp, fun _ _ h => .inl h⟩, fun τ h => ?_⟩
  apply List.ext_getElem?
  intro i
  have hl := h.length_eq
  by_cases hi : i < σ.length
  · have e1 : τ[i]? = some τ[i] := List.getElem?_eq_getElem (by omega)
    have e2 : σ[i]? = some σ[i] := List.getElem?_eq_getElem hi
    have g1 : Subst.get τ i = τ[i] := by simp [Subst.get, e1]
    have g2 : Subst.get σ i = σ[i] := by simp [Subst.get, e2]
    rw [e1, e2]
    congr 1
    cases hs : σ[i] with
    | some r => rw [← g1]; exact h.keeps i r (by rw [g2, hs])
    | none =>
      cases ht : τ[i] with
      | none => rfl
      | some r =>
        rcases h.minimal i r (by rw [g1, ht]) with h' | h'
        · rw [g2, hs] at h'; simp at h'
        · simp [patsVars] at h'
  · rw [List.getElem?_eq_none (by omega), List.getElem?_eq_none (by omega)]

theorem inGraph_nil (g : Option R) : inGraph g ([] : List (QuadPat R)) = [] := rfl

theorem get_input (r : R) : Subst.get ([some r] : Subst R) 0 = some r := by simp [Subst.get]

theorem prim_ok (x : Xsd) (hx : DsLaws c x) (le) (M) (g : Option R) (ref : R) (p : Prim) (l : Layout R)
    (hr : c.reg ref = some l) (hp : p.Describes c l) (r : R) (lit : TypedLiteral R)
    (h : primValue c ref r p = .ok lit) (hv : AllIds c.NotBlank (.literal lit)) :
    LayoutMeaning (c.toHy x le) M g ref [r] (.literal lit) l := by
  cases p with
  | id =>
    simp only [Prim.Describes] at hp
    subst hp
    refine ⟨[some r], r, ?_⟩
    simp only [primValue, primId] at h
    split at h
    · rename_i iri e
      simp only [Out.map, Out.ok.injEq] at h
      subst h
      exact ⟨iri, uniqueMatch_nil _ _, get_input r, e, rfl⟩
    · simp [Out.map] at h
    · split at h
      · simp [Out.map] at h
      · rename_i b e
        simp only [Out.map, Out.ok.injEq] at h
        subst h
        cases hv with
        | literal _ hv => exact absurd (by rw [e]; simp) (hv b ref rfl r)
      · simp [Out.map] at h
  | string =>
    obtain ⟨d, rfl, hd⟩ := hp
    have hdt := hx.datatype _ _ _ hr rfl
    simp only [primValue] at h
    cases hs : primString (c.literalsOf r) with
    | ok s =>
      rw [hs] at h
      simp only [Out.map, Out.ok.injEq] at h
      subst h
      rw [primString_single _ (hx.single r)] at hs
      obtain ⟨lit, e, ht, rfl⟩ := hs
      refine ⟨lit.value, ⟨[some r], r, lit, xsdString, uniqueMatch_nil _ _, get_input r, ?_, ht, rfl⟩, rfl⟩
      change List.filter (fun lit => (c.irisOf d).any fun j => lit.type == .any j) (c.literalsOf r) = [lit]
      rw [show c.irisOf d = _ from hdt.1]
      exact (filter_single (hx.single r) _ _).2 ⟨e, by rw [ht]; exact congrArg _ hd.symm⟩
    | err _ => rw [hs] at h; simp [Out.map] at h
    | panic => rw [hs] at h; simp [Out.map] at h
    | fuel => rw [hs] at h; simp [Out.map] at h
  | int dt lo hi =>
    obtain ⟨d, rfl, hd⟩ := hp
    have hdt := hx.datatype _ _ _ hr rfl
    have hnum := hx.numType _ _ hr
    simp only [primValue, Out.bind_eq_ok] at h
    obtain ⟨o, ho, h⟩ := h
    cases o with
    | none => simp only [literalResult] at h; split at h <;> simp [Out.map] at h
    | some z =>
      have h : (TypedLiteral.number (z : Rat) ref) = lit := by
        have h' : Out.ok (ε := DsError) (TypedLiteral.number (z : Rat) ref) = .ok lit := h
        injection h'
      subst h
      rw [scanInt_single _ _ _ (hx.single r)] at ho
      obtain ⟨lit, e, ht, hz⟩ := ho
      simp only [parseRange, Option.filter_eq_some_iff] at hz
      refine ⟨(z : Rat), ⟨[some r], r, lit, dt, uniqueMatch_nil _ _, get_input r, ?_, ht, ?_⟩, rfl⟩
      · change List.filter (fun lit => (c.irisOf d).any fun j => lit.type == .any j) (c.literalsOf r) = [lit]
        rw [show c.irisOf d = _ from hdt.1]
        exact (filter_single (hx.single r) _ _).2 ⟨e, by rw [ht]; exact congrArg _ hd.symm⟩
      · change c.datatypeIri d = dt at hd
        change x.isDecimal (c.datatypeIri d) = true at hnum
        simp [Hydrate.numberValue, DsCtx.toHy, ← hd, hnum, hx.int _ _ hz.1]

/-- The number of inputs, for a call of the type `ref`. -/
def Arity (ref : R) (inputs : List R) : Prop := ∀ l k, c.reg ref = some l → l.inputCount = some k → inputs.length = k

theorem arity_format (hwt : c.reg.WellTyped) {ref : R} {l : Layout R} (hr : c.reg ref = some l) {f : ValueFormat R}
    (hf : f ∈ l.formats) {i : List R} (hi : i.length = f.input.length) : Arity c f.layout i := by
  obtain ⟨l', h1, h2⟩ := hwt ref l hr f hf
  intro l'' k hl hk
  rw [h1] at hl
  injection hl with hl
  subst hl
  rw [hi, h2 k hk]

theorem head_single {inputs : List R} {r : R} (h : inputs.head? = some r) (h1 : inputs.length = 1) : inputs = [r] := by
  rcases inputs with _ | ⟨a, _ | ⟨b, as⟩⟩
  · simp at h1
  · simp at h; rw [h]
  · simp at h1

theorem describes_inputCount {p : Prim} {l : Layout R} (h : p.Describes c l) : l.inputCount = some 1 := by
  cases p with
  | id => simp only [Prim.Describes] at h; subst h; rfl
  | string => obtain ⟨d, rfl, -⟩ := h; rfl
  | int => obtain ⟨d, rfl, -⟩ := h; rfl

/-- A value read by derived code is a meaning of its layout. -/
theorem deserialize_meaning (hreg : c.reg.Closed) (hwt : c.reg.WellTyped) (hds : c.ds.Nodup) (x : Xsd) (hx : DsLaws c x)
    (n : Nat) (g : Option R) (ref : R) (inputs : List R) (hin : Arity c ref inputs) (v : TypedValue R)
    (h : deserialize c n g ref inputs = .ok v) (hv : AllIds c.NotBlank v) :
    Meaning (c.toHy x anyOrder) n g ref inputs v := by
  induction n generalizing g ref inputs v with
  | zero => simp [deserialize] at h
  | succ n ih =>
    unfold deserialize at h
    cases hp : c.prim ref with
    | some p =>
      obtain ⟨l, hr, hd⟩ := hx.prim _ _ hp
      simp only [hp, Out.bind_eq_ok, Out.ofOption_eq_ok] at h
      obtain ⟨r, hr', h⟩ := h
      have hin1 := hin l 1 hr (describes_inputCount c hd)
      have e := head_single hr' hin1
      subst e
      cases hl : primValue c ref r p with
      | ok lit =>
        rw [hl] at h
        simp only [Out.map, Out.ok.injEq] at h
        subst h
        exact ⟨l, hr, fun k hk => hin l k hr hk, prim_ok c x hx _ _ g ref p l hr hd r lit hl hv⟩
      | err _ => rw [hl] at h; simp [Out.map] at h
      | panic => rw [hl] at h; simp [Out.map] at h
      | fuel => rw [hl] at h; simp [Out.map] at h
    | none =>
      simp only [hp] at h
      cases hr : c.reg ref with
      | none => simp [hr] at h
      | some l =>
        simp only [hr] at h
        have hs := layout_ok c hds x hx _ n g ref inputs l hr (hreg _ _ hr) (fun k hk => hin l k hr hk) v h
        exact ⟨l, hr, fun k hk => hin l k hr hk, strictMeaning_transfer
          (fun f hf g i w hi hw hM => ih g f.layout i (arity_format c hwt hr hf hi) w hM hw) hv hs⟩

end Derived

end Verif
