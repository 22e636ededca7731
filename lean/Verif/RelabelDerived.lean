import Verif.RelabelSpec
import Verif.Derive

/-!
# Derived code with types under other identifiers

Helper lemmas for C102. No further code is modelled.
-/

set_option linter.unusedSectionVars false
set_option linter.unusedSimpArgs false

namespace Verif

theorem TypedValue.relabelMap_eq {R : Type _} (f : R → R) (m : List (Value × TypedValue R)) :
    TypedValue.relabelMap f m = m.map fun e => (e.1, e.2.relabel f) := by
  induction m with
  | nil => rfl
  | cons e m ih => obtain ⟨k, v⟩ := e; simp [TypedValue.relabelMap, ih]

theorem TypedValue.relabelList_eq {R : Type _} (f : R → R) (l : List (TypedValue R)) :
    TypedValue.relabelList f l = l.map (TypedValue.relabel f) := by
  induction l with
  | nil => rfl
  | cons v l ih => simp [TypedValue.relabelList, ih]

namespace Derived

theorem bind_same {ε α β γ : Type _} {o : Out ε α} {k : α → Out ε β} {k' : α → Out ε γ} {h : β → γ} (hk : ∀ a, k' a = (k a).map h) :
    o.bind k' = (o.bind k).map h := by
  cases o <;> first | exact hk _ | rfl

theorem bind_mapped {ε α α' β γ : Type _} {o : Out ε α} {o' : Out ε α'} {j : α → α'} (ho : o' = o.map j) {k : α → Out ε β}
    {k' : α' → Out ε γ} {h : β → γ} (hk : ∀ a, k' (j a) = (k a).map h) : o'.bind k' = (o.bind k).map h := by
  subst ho
  cases o <;> first | exact hk _ | rfl

section

variable {R : Type} [DecidableEq R] {c : DsCtx R} {f : R → R} {reg' : Registry R} {prim' : R → Option Prim}
  {lit' : R → String → Option (TypedLiteral R)} {rec rec' : Rec R} {g : Option R} {σ : Subst R}

/-- The context with the types under other identifiers. -/
abbrev other (c : DsCtx R) (reg' : Registry R) (prim' : R → Option Prim) (lit' : R → String → Option (TypedLiteral R)) : DsCtx R :=
  { c with reg := reg', prim := prim', fromLiteral := lit' }

theorem scan_relabel {parse parse' : String → Option (TypedLiteral R)} (h : ∀ s, parse' s = (parse s).map (TypedLiteral.relabel f))
    (dt : String) (ls : List RdfLit) (result : Option (TypedLiteral R)) :
    scan parse' dt ls (result.map (TypedLiteral.relabel f)) = (scan parse dt ls result).map (Option.map (TypedLiteral.relabel f)) := by
  induction ls generalizing result with
  | nil => rfl
  | cons l ls ih =>
    unfold scan
    rw [h]
    split
    · cases hp : parse l.value with
      | none => simpa using ih result
      | some v =>
        simp only [Option.map_some, Option.isSome_map]
        split
        · rfl
        · exact ih (some v)
    · exact ih result

theorem data_relabel (hlit : ∀ r s, lit' (f r) s = (c.fromLiteral r s).map (TypedLiteral.relabel f)) (ref : R) (l : DataLayout R)
    (inputs : List R) : data (other c reg' prim' lit') g (f ref) l inputs = (data c g ref l inputs).map (TypedValue.relabel f) := by
  refine bind_same fun σ => bind_same fun r => bind_mapped (scan_relabel (hlit ref) _ _ none) fun v => ?_
  cases v with
  | some v => rfl
  | none =>
    simp only [Option.map_none, literalResult]
    split <;> rfl

variable (hrec : ∀ g r i, rec' g (f r) i = (rec g r i).map (TypedValue.relabel f))

include hrec

theorem subValue_relabel (fmt : ValueFormat R) (σ : Subst R) :
    subValue (other c reg' prim' lit') rec' g (fmt.relabel f) σ = (subValue c rec g fmt σ).map (TypedValue.relabel f) :=
  bind_same fun _ => bind_same fun _ => hrec _ _ _

theorem readFields_relabel (fs : List (Value × Field R)) :
    readFields (other c reg' prim' lit') rec' g σ (fs.map fun x => (x.1, x.2.relabel f)) =
      (readFields c rec g σ fs).map (List.map (Option.map (TypedValue.relabel f))) := by
  induction fs with
  | nil => rfl
  | cons e fs ih =>
    obtain ⟨k, x⟩ := e
    rw [List.map_cons]
    unfold readFields
    refine bind_same fun o => ?_
    cases o with
    | none => exact bind_mapped ih fun _ => rfl
    | some σ' => exact bind_mapped (subValue_relabel hrec x.value σ') fun _ => bind_mapped ih fun _ => rfl

omit hrec in
theorem unwrapFields_relabel (fs : List (Value × Field R)) (vs : List (Option (TypedValue R))) :
    unwrapFields (fs.map fun x => (x.1, x.2.relabel f)) (vs.map (Option.map (TypedValue.relabel f))) =
      (unwrapFields fs vs).map (List.map fun e => (e.1, e.2.relabel f)) := by
  induction fs generalizing vs with
  | nil => cases vs <;> rfl
  | cons e fs ih =>
    obtain ⟨k, x⟩ := e
    cases vs with
    | nil => rfl
    | cons v vs =>
      cases v with
      | some v => exact bind_mapped (ih vs) fun _ => rfl
      | none =>
        simp only [List.map_cons, Option.map_none, unwrapFields, Field.relabel]
        split
        · rfl
        · exact ih vs

theorem variants_relabel (ref : R) (vs : List (Variant R)) (i : Nat) (result : Option (TypedValue R)) :
    variants (other c reg' prim' lit') rec' g (f ref) σ i (vs.map (Variant.relabel f)) (result.map (TypedValue.relabel f)) =
      (variants c rec g ref σ i vs result).map (TypedValue.relabel f) := by
  induction vs generalizing i result with
  | nil => cases result <;> rfl
  | cons x vs ih =>
    rw [List.map_cons]
    unfold variants
    refine bind_same fun o => ?_
    cases o with
    | none => exact ih _ _
    | some σ' =>
      refine bind_mapped (subValue_relabel hrec x.value σ') fun v => ?_
      rw [Option.isSome_map]
      split
      · rfl
      · rw [← ih]
        rfl

theorem unorderedItems_relabel (fmt : ValueFormat R) (n : Nat) (st : Matching.Stack R) :
    unorderedItems (other c reg' prim' lit') rec' g (fmt.relabel f) n st =
      (unorderedItems c rec g fmt n st).map (List.map (TypedValue.relabel f)) := by
  induction n generalizing st with
  | zero => rfl
  | succ n ih =>
    unfold unorderedItems
    refine bind_same fun o => ?_
    rcases o with _ | ⟨σ, st'⟩
    · rfl
    · exact bind_mapped (subValue_relabel hrec fmt σ) fun _ => bind_mapped (ih st') fun _ => rfl

theorem nodes_relabel (node : ItemLayout R) (tail : R) (n : Nat) (head : R) :
    nodes (other c reg' prim' lit') rec' g (node.relabel f) σ tail n head =
      (nodes c rec g node σ tail n head).map (List.map (TypedValue.relabel f)) := by
  induction n generalizing head with
  | zero =>
    unfold nodes
    split <;> rfl
  | succ n ih =>
    unfold nodes
    split
    · rfl
    · exact bind_same fun σ' => bind_mapped (subValue_relabel hrec node.value σ') fun _ => bind_same fun h => bind_mapped (ih h) fun _ => rfl

theorem sizedItems_relabel (is : List (ItemLayout R)) :
    sizedItems (other c reg' prim' lit') rec' g σ (is.map (ItemLayout.relabel f)) =
      (sizedItems c rec g σ is).map (List.map (TypedValue.relabel f)) := by
  induction is with
  | nil => rfl
  | cons x is ih =>
    exact bind_same fun σ' => bind_mapped (subValue_relabel hrec x.value σ') fun _ => bind_mapped ih fun _ => rfl

theorem layout_relabel (hlit : ∀ r s, lit' (f r) s = (c.fromLiteral r s).map (TypedLiteral.relabel f)) (n : Nat) (ref : R)
    (inputs : List R) (l : Layout R) :
    layout (other c reg' prim' lit') rec' n g (f ref) inputs (l.relabel f) =
      (layout c rec n g ref inputs l).map (TypedValue.relabel f) := by
  cases l with
  | never => rfl
  | always => rfl
  | unit l => exact bind_same fun _ => rfl
  | boolean l => exact data_relabel hlit ref l inputs
  | number l => exact data_relabel hlit ref l inputs
  | byteString l => exact data_relabel hlit ref l inputs
  | textString l => exact data_relabel hlit ref l.toDataLayout inputs
  | id l =>
    refine bind_same fun _ => bind_same fun r => ?_
    change (idValue c r).map _ = _
    cases idValue c r <;> rfl
  | sum l => exact bind_same fun _ => variants_relabel hrec ref l.variants 0 none
  | product l =>
    exact bind_same fun _ => bind_mapped (readFields_relabel hrec l.fields) fun data =>
      bind_mapped (unwrapFields_relabel l.fields data) fun record => by
        simp only [Out.map, TypedValue.relabel, TypedValue.relabelMap_eq]
  | unordered l =>
    exact bind_same fun _ => bind_same fun pats => bind_mapped (unorderedItems_relabel hrec l.item.value _ _) fun items => by
      simp only [Out.map, TypedValue.relabel, TypedValue.relabelList_eq]
  | ordered l =>
    exact bind_same fun _ => bind_same fun _ => bind_same fun _ => bind_mapped (nodes_relabel hrec l.node _ n _) fun items => by
      simp only [Out.map, TypedValue.relabel, TypedValue.relabelList_eq]
  | sized l =>
    exact bind_same fun _ => bind_mapped (sizedItems_relabel hrec l.items) fun items => by
      simp only [Out.map, TypedValue.relabel, TypedValue.relabelList_eq]

omit hrec in
theorem deserialize_relabel (hreg : c.reg.Relabels f reg') (hprim : ∀ r, prim' (f r) = c.prim r)
    (hlit : ∀ r s, lit' (f r) s = (c.fromLiteral r s).map (TypedLiteral.relabel f)) (n : Nat) (g : Option R) (ref : R)
    (inputs : List R) :
    deserialize (other c reg' prim' lit') n g (f ref) inputs = (deserialize c n g ref inputs).map (TypedValue.relabel f) := by
  induction n generalizing g ref inputs with
  | zero => rfl
  | succ n ih =>
    unfold deserialize
    dsimp only
    rw [hprim, hreg]
    cases c.prim ref with
    | some p =>
      refine bind_same fun r => ?_
      cases p with
      | id =>
        change (Out.map _ (Out.map _ (primId c r))) = _
        simp only [primValue]
        cases primId c r <;> rfl
      | string =>
        simp only [primValue]
        cases primString (c.literalsOf r) <;> rfl
      | int dt lo hi =>
        have he : parseRange (other c reg' prim' lit') lo hi = parseRange c lo hi := rfl
        simp only [primValue, he]
        cases scanInt (parseRange c lo hi) dt (c.literalsOf r) none with
        | ok v =>
          simp only [Out.bind]
          cases literalResult (c.literalsOf r) v <;> rfl
        | _ => rfl
    | none =>
      cases c.reg ref with
      | none => rfl
      | some l => exact layout_relabel (fun g r i => ih g r i) hlit n ref inputs l

end

/-! ## Serialization -/

section

variable {c : SeCtx} {f : Term → Term} {reg' : Registry Term} {prim' : Term → Option Prim} {rec rec' : SRec} {g : Option IRes}
  {env : Env IRes}

variable (hrec : ∀ v g r i, rec' v g (f r) i = rec v g r i)

include hrec

theorem writeItem_relabel (k : Nat) (dataset : List (QuadPat Term)) (fmt : ValueFormat Term) (env : Env IRes) (v : TypedValue Term) :
    writeItem rec' g env k dataset (fmt.relabel f) v = writeItem rec g env k dataset fmt v := by
  simp only [writeItem, writeSub, ValueFormat.relabel, hrec]

theorem writeFields_relabel (m : List (Value × TypedValue Term)) (fs : List (Value × Field Term)) :
    writeFields rec' g env m (fs.map fun x => (x.1, x.2.relabel f)) = writeFields rec g env m fs := by
  induction fs with
  | nil => rfl
  | cons e fs ih =>
    obtain ⟨k, x⟩ := e
    simp only [Field.relabel] at ih
    simp only [List.map_cons, writeFields, ih, Field.relabel, writeItem_relabel hrec]

theorem writeItems_relabel (item : ItemLayout Term) (vs : List (TypedValue Term)) :
    writeItems rec' g env (item.relabel f) vs = writeItems rec g env item vs := by
  induction vs with
  | nil => rfl
  | cons v vs ih =>
    simp only [ItemLayout.relabel] at ih
    simp only [writeItems, ih, ItemLayout.relabel, writeItem_relabel hrec]

theorem writeNodes_relabel (node : ItemLayout Term) (tail : Pattern Term) (head : IRes) (vs : List (TypedValue Term)) :
    writeNodes rec' g env (node.relabel f) tail head vs = writeNodes rec g env node tail head vs := by
  induction vs generalizing head with
  | nil => rfl
  | cons v vs ih =>
    simp only [ItemLayout.relabel] at ih
    simp only [writeNodes, ih, ItemLayout.relabel, writeItem_relabel hrec]

theorem writeSized_relabel (vs : List (TypedValue Term)) (is : List (ItemLayout Term)) :
    writeSized rec' g env vs (is.map (ItemLayout.relabel f)) = writeSized rec g env vs is := by
  induction vs generalizing is with
  | nil => cases is <;> rfl
  | cons v vs ih =>
    cases is with
    | nil => rfl
    | cons x is => simp only [List.map_cons, writeSized, ih, ItemLayout.relabel, writeItem_relabel hrec]

theorem writeLayout_relabel (v : TypedValue Term) (inputs : List IRes) (l : Layout Term) :
    writeLayout { c with reg := reg', prim := prim' } rec' v g inputs (l.relabel f) = writeLayout c rec v g inputs l := by
  cases l with
  | product l => simp only [writeLayout, Layout.relabel, writeFields_relabel hrec]
  | unordered l => simp only [writeLayout, Layout.relabel, writeItems_relabel hrec]
  | ordered l => simp only [writeLayout, Layout.relabel, writeNodes_relabel hrec]
  | sized l => simp only [writeLayout, Layout.relabel, writeSized_relabel hrec]
  | sum l =>
    simp only [writeLayout, Layout.relabel, List.getElem?_map]
    split
    · rename_i w _ i
      cases l.variants[i]? with
      | none => rfl
      | some x => simp only [Option.map_some, Variant.relabel, writeItem_relabel hrec]
    · rfl
  | _ => rfl

omit hrec in
theorem serialize_relabel (hreg : c.reg.Relabels f reg') (hprim : ∀ r, prim' (f r) = c.prim r) (n : Nat) (v : TypedValue Term)
    (g : Option IRes) (ref : Term) (inputs : List IRes) :
    serialize { c with reg := reg', prim := prim' } n v g (f ref) inputs = serialize c n v g ref inputs := by
  induction n generalizing v g ref inputs with
  | zero => rfl
  | succ n ih =>
    unfold serialize
    dsimp only
    rw [hprim, hreg]
    cases c.prim ref with
    | some p => rfl
    | none =>
      cases c.reg ref with
      | none => rfl
      | some l => exact writeLayout_relabel (fun v g r i => ih v g r i) v inputs l

end

end Derived

end Verif
