import Verif.SingleSpec
import Verif.Hydrate
import Verif.DehydrateGraph
import Verif.DeriveSer

/-!
# Sums with one variant

Helper lemmas for C106. No further code is modelled.
-/

set_option linter.unusedSectionVars false
set_option linter.unusedSimpArgs false

namespace Verif

theorem value_input {R : Type _} {inputs : List R} {i : Nat} (h : i < inputs.length) :
    (Pattern.var i).value (((Subst.fromInputs inputs).intro 0).intro 0) = some inputs[i] := by
  simp [Pattern.value, Pattern.apply, Pattern.intoResource, Subst.fromInputs, Subst.intro, Subst.get, h]

theorem mapM_inputs {R ε : Type _} (inputs : List R) :
    Out.mapM' (fun p : Pattern R => (Out.ofOption (p.value (((Subst.fromInputs inputs).intro 0).intro 0)) : Out ε R))
      ((List.range inputs.length).map .var) = .ok inputs := by
  rw [Out.mapM'_eq_ok, List.forall₂_iff_get]
  refine ⟨by simp, fun i h1 h2 => ?_⟩
  have h3 : i < inputs.length := h2
  simp only [List.get_eq_getElem, List.getElem_map, List.getElem_range]
  rw [value_input h3]
  rfl

theorem intro_zero {R : Type _} (σ : Subst R) : σ.intro 0 = σ := by simp [Subst.intro]

namespace Hydrate

variable {R : Type _} [DecidableEq R] {c : HyCtx R}

theorem hydrate_single {ref : R} {name : String} {inner : R} {inputs : List R}
    (h : c.reg ref = some (.sum (.single inputs.length name inner))) (n : Nat) (g : Option R) :
    hydrate c (n + 1) g ref inputs =
      match hydrate c n g inner inputs with
      | .ok v => .ok (.variant v ref 0)
      | .err _ => .panic
      | .panic => .panic
      | .fuel => .fuel := by
  rw [hydrate, h]
  dsimp only
  have h1 : (Layout.sum (SumLayout.single inputs.length name inner)).inputCount = some inputs.length := rfl
  rw [h1]
  simp only [Option.any_some, ne_eq, not_true_eq_false, decide_false, Bool.false_eq_true, if_false]
  have h2 : subValue (hydrate c n) g ⟨inner, (List.range inputs.length).map .var, none⟩ (((Subst.fromInputs inputs).intro 0)) =
      hydrate c n g inner inputs := by
    have := mapM_inputs (ε := HyError R) inputs
    rw [intro_zero] at this
    unfold subValue selectInputs
    change (Out.mapM' (fun p : Pattern R => (Out.ofOption (p.value ((Subst.fromInputs inputs).intro 0)) : Out (HyError R) R)) _).bind _ = _
    rw [this]
    rfl
  change (match subValue (hydrate c n) g ⟨inner, (List.range inputs.length).map .var, none⟩ (((Subst.fromInputs inputs).intro 0)) with
    | .ok v => _ | .err _ => _ | .panic => _ | .fuel => _) = _
  rw [h2]
  cases hydrate c n g inner inputs <;> rfl

end Hydrate

theorem map_patInst (ins : List IRes) : ((List.range ins.length).map Pattern.var).map (Dehydrate.patInst ins) = ins := by
  refine List.ext_getElem (by simp) fun i h1 h2 => ?_
  simp [Dehydrate.patInst, h2]

theorem range_below (k : Nat) : ∀ p ∈ (List.range k).map (Pattern.var (R := Term)), p.Below k := by
  intro p hp
  obtain ⟨i, hi, rfl⟩ := List.mem_map.1 hp
  intro x hx
  simp only [Pattern.vars, List.mem_singleton] at hx
  subst hx
  exact List.mem_range.1 hi

theorem intro_none {α : Type} (env : Env IRes) (k : Env IRes → DeM α) (s : DeState) :
    (Dehydrate.intro env 0).bind k s = k (.child env []) s := rfl

theorem pure_bind {α β : Type} (a : α) (k : α → DeM β) (s : DeState) : (DeM.pure a).bind k s = k a s := rfl

namespace Dehydrate

variable {c : DeCtx}

theorem dehydrateWith_single {ref : Term} {name : String} {inner : Term} {ins : List IRes}
    (h : c.reg ref = some (.sum (.single ins.length name inner))) (n : Nat) (v : Value) (g : Option IRes) (s : DeState) :
    dehydrateWith c (n + 1) v g ref ins s =
      match dehydrateWith c n v g inner ins s with
      | (.err _, s') => (.err .incompatibleLayout, s')
      | r => r := by
  rw [dehydrateWith, h]
  dsimp only
  have h1 : (Layout.sum (SumLayout.single ins.length name inner)).inputCount = some ins.length := rfl
  rw [h1]
  simp only [Option.any_some, ne_eq, not_true_eq_false, decide_false, Bool.false_eq_true, if_false]
  simp only [layout, SumLayout.single]
  have hf : (Env.child (Env.root ins) []).flat = ins := by simp [Env.flat]
  rw [intro_none, instDataset, pure_bind, variants_cons (by intro x hx; simp [patsVars] at hx)
    ⟨by rw [hf]; exact range_below _, by simp⟩]
  have h2 : call (dehydrateWith c n) g ⟨inner, (List.range ins.length).map .var, none⟩
      (scope (Env.child (Env.root ins) []).flat 0 s) v (alloc 0 s) = dehydrateWith c n v g inner ins s := by
    rw [hf]
    have : scope ins 0 s = ins := by simp [scope, freshList]
    rw [this]
    simp only [call, map_patInst]
    rfl
  rw [h2]
  rcases dehydrateWith c n v g inner ins s with ⟨a | e | _ | _, s'⟩ <;> rfl

end Dehydrate

namespace Derived

theorem deserialize_single {R : Type} [DecidableEq R] {c : DsCtx R} {ref : R} {name : String} {inner : R} {inputs : List R}
    (h : c.reg ref = some (.sum (.single inputs.length name inner))) (hp : c.prim ref = none) (n : Nat) (g : Option R) :
    deserialize c (n + 1) g ref inputs = (deserialize c n g inner inputs).map (.variant · ref 0) := by
  rw [deserialize, hp, h]
  have h2 : subValue c (deserialize c n) g ⟨inner, (List.range inputs.length).map .var, none⟩ (((Subst.fromInputs inputs).intro 0).intro 0) =
      deserialize c n g inner inputs := by
    have hk : ((List.range inputs.length).map (Pattern.var (R := R))).all (knows c) = true := by simp [knows]
    simp only [subValue, selectInputs, hk, if_true]
    rw [mapM_inputs]
    rfl
  change (subValue c (deserialize c n) g ⟨inner, (List.range inputs.length).map .var, none⟩
    (((Subst.fromInputs inputs).intro 0).intro 0)).bind _ = _
  rw [h2]
  cases deserialize c n g inner inputs <;> rfl

theorem serialize_single {c : SeCtx} {ref : Term} {name : String} {inner : Term} {ins : List IRes}
    (h : c.reg ref = some (.sum (.single ins.length name inner))) (hp : c.prim ref = none) (n : Nat) (v : TypedValue Term) (ty : Term)
    (g : Option IRes) (s : DeState) :
    serialize c (n + 1) (.variant v ty 0) g ref ins s = serialize c n v g inner ins s := by
  rw [serialize, hp, h]
  simp only [writeLayout, SumLayout.single]
  rw [intro_none, instDataset, pure_bind]
  simp only [List.getElem?_cons_zero, writeItem]
  rw [intro_none, instDataset, pure_bind]
  have hf : (Env.child (Env.child (Env.root ins) []) []).flat = ins := by simp [Env.flat]
  unfold writeSub
  rw [DeM.bind_ok (a := ins) (s' := s)]
  · rfl
  · simp only [DeM.read]
    rw [insts_eq (by rw [hf]; exact range_below _), hf, map_patInst]

end Derived

end Verif
