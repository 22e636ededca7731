import Verif.Props.CompactCli
import Verif.CliFormatsLemmas

/-!
# The layouts given to the commands

No further code is modelled. The fields of the records loaded by the command line tool are sorted, so that C05, C06 and C10 apply;
encoding a hydrated tree in CBOR finds the layouts of all its parts.
-/

set_option linter.unusedSectionVars false
set_option linter.unusedSimpArgs false

namespace Verif

open Verif.Props

variable {F : Type}

/-! ## The layouts that are loaded -/

theorem fields_keys {R : Type} {c : BuildCtx R} {reg : R → Option (AbsLayout R)} {input : OneOrMany String} :
    (fs : List (Value × SField)) → {env : LexEnv} → {fs' : List (Value × Field R)} → FieldsMean c reg input fs env fs' →
    fs'.map Prod.fst = fs.map Prod.fst
  | [], _, _, h => by simp only [FieldsMean] at h; subst h; rfl
  | (name, f) :: fs, _, _, h => by
    simp only [FieldsMean] at h
    obtain ⟨f', fs'', rfl, -, h⟩ := h
    rw [List.map_cons, List.map_cons, fields_keys fs h]

/-- The constants and the fields of a definition are those of trees that exist. -/
def SLayout.WFConstants : SLayout → Prop
  | .unit _ k => k.WF
  | .product _ fields => SortedKeys fields ∧ ∀ e ∈ fields, e.1.WF
  | _ => True

/-- The constants and the fields of a layout are those of trees that exist. -/
def Layout.WFConstants {R : Type} : Layout R → Prop
  | .unit l => l.const.WF
  | .product l => SortedKeys l.fields ∧ ∀ e ∈ l.fields, e.1.WF
  | _ => True

/-- The same, for all layouts of a registry. -/
def Registry.WFConstants {R : Type} (reg : Registry R) : Prop := ∀ ref l, reg ref = some l → l.WFConstants

theorem Registry.WFConstants.sorted {reg : Registry Term} (h : reg.WFConstants) : reg.Sorted := fun ref _ hl => (h ref _ hl).1

theorem Registry.WFConstants.distinct {reg : Registry Term} (h : reg.WFConstants) : reg.DistinctKeys :=
  fun ref _ hl => RoundTrip.SortedKeys.nodup (h ref _ hl).1

theorem fieldEntries_text {lib : ParseLib} : {es : JsonObject} → {fs : List (Value × SField)} → FieldEntries lib es fs →
    ∀ e ∈ fs, e.1.WF
  | _, _, .nil => by simp
  | _, _, .cons _ hs => List.forall_mem_cons.2 ⟨.literal _, fieldEntries_text hs⟩

theorem parsed_constants {lib : ParseLib} {ilib : IriLib} {env env' : LexEnv} {j : Json} {l l' : SLayout} (h : parseLayout lib j = .ok l)
    (hs : SubDef ilib env l env' l') : l'.WFConstants := by
  rcases parsed_sub h hs with ⟨b, rfl⟩ | ⟨o, ho⟩
  · trivial
  · cases ho <;> try trivial
    case unit k hk hc =>
      generalize o.lookup _ = j at hc
      cases j with
      | none => cases hc; exact .literal _
      | some j => exact toValue_wf j k hc
    case record hk hf =>
      generalize o.lookup _ = j at hf
      cases hf with
      | absent => exact ⟨by unfold SortedKeys; exact .nil, by simp⟩
      | present hf => exact ⟨sortedKeys_collect _, fun e he => fieldEntries_text hf e (bmapCollect_mem _ e he)⟩

/-- The constants and fields of a layout are those of its definition. -/
theorem means_constants {R : Type} [DecidableEq R] {c : BuildCtx R} {reg : R → Option (AbsLayout R)} {env : LexEnv} {l : SLayout}
    {a : AbsLayout R} (h : l.Means c reg env a) (hs : l.WFConstants) {debug : Bool} {fuel : Nat} {a' : Layout R}
    (ha : a.build debug fuel = .ok a') : a'.WFConstants := by
  cases l <;> simp only [SLayout.Means] at h
  case unit hd k =>
    obtain ⟨l, env', rfl, -, hk⟩ := h
    cases ha
    show l.const.WF
    rw [hk]
    exact hs
  case product hd fields =>
    obtain ⟨l, env', rfl, -, hf⟩ := h
    have := fields_keys fields hf
    cases ha
    obtain ⟨h1, h2⟩ := hs
    refine ⟨?_, fun e he => ?_⟩
    · unfold SortedKeys at h1 ⊢
      rw [this]
      exact h1
    · obtain ⟨e', he', hee⟩ := List.mem_map.1 (this ▸ List.mem_map.2 ⟨e, he, rfl⟩ : e.1 ∈ fields.map Prod.fst)
      rw [← hee]
      exact h2 e' he'
  case bool b => subst h; cases b <;> cases ha <;> trivial
  case id =>
    obtain ⟨_, _, _, _, _, rfl, _⟩ := h
    simp only [AbsLayout.build, Out.bind_eq_ok, Out.ok.injEq] at ha
    obtain ⟨_, _, rfl⟩ := ha
    trivial
  case textString =>
    obtain ⟨_, _, rfl, _⟩ := h
    simp only [AbsLayout.build, Out.bind_eq_ok, Out.ok.injEq] at ha
    obtain ⟨_, _, rfl⟩ := ha
    trivial
  all_goals (obtain ⟨_, _, rfl, _⟩ := h; cases ha; trivial)

theorem prelude_constants {ref : Term} {l : Layout Term} (h : preludeRegistry Term.iri ref = some l) : l.WFConstants := by
  obtain ⟨e, he, rfl⟩ := Option.map_eq_some_iff.1 h
  have he := List.mem_of_find?_eq_some he
  simp only [preludeTable, List.mem_cons, List.not_mem_nil, or_false] at he
  rcases he with rfl | rfl | rfl | rfl | rfl | rfl | rfl | rfl | rfl | rfl | rfl | rfl <;> first | trivial | exact .literal _

/-- The constants and fields of all layouts loaded by the tool are those of trees that exist, whatever the files are. -/
theorem cli_constants {env : LoadEnv Term} {args : CliArgs} {reg : Registry Term} {d : DefaultLayout Term}
    (hp : prepare env (preludeRegistry Term.iri) args = .ok (reg, d)) : reg.WFConstants := by
  intro ref p ha
  obtain ⟨ds, hl, h1, h2⟩ := C36_cli _ _ _ _ _ hp
  by_cases hr : ∀ d ∈ ds, ref ∉ d.2.1.keys
  · rw [h2 ref hr] at ha
    split at ha
    · cases ha
    · exact prelude_constants ha
  · simp only [not_forall, not_not] at hr
    obtain ⟨d, hd, hk⟩ := hr
    obtain ⟨x, hx⟩ := Option.isSome_iff_exists.1 (mem_keys_iff.1 hk)
    obtain ⟨j, n, k, hj, hload⟩ := loads_file hl d hd
    obtain ⟨l, b, hparse, hbuild, hall, -⟩ := loadDocument_ok hload
    have := h1 d hd ref x.1 x.2 (mem_of_lookup' hx)
    rw [ha] at this
    injection this with this
    obtain ⟨e, he, hb⟩ := lookup_buildAll _ _ hall ref x hx
    obtain ⟨l₀, hl₀, l', env', areg, hs, -, hm, -⟩ :=
      compiled_subdef (defs := [l]) (.define (b := ⟨[], k⟩) _ l _ (.empty k) hbuild) ref e he
    obtain rfl := List.mem_singleton.1 hl₀
    rw [← this] at hb
    exact means_constants hm.1 (parsed_constants hparse hs) hb

/-! ## Hydrated trees exist -/

theorem fields_sublist {R : Type} [DecidableEq R] {c : HyCtx R} {rec : Hydrate.Rec R} {g : Option R} {ref : R} {σ : Subst R} :
    (fs : List (Value × Field R)) → {m : List (Value × TypedValue R)} → Hydrate.fields c rec g ref σ fs = .ok m →
    (m.map Prod.fst).Sublist (fs.map Prod.fst)
  | [], m, h => by simp only [Hydrate.fields, Out.ok.injEq] at h; subst h; simp
  | (k, f) :: fs, m, h => by
    unfold Hydrate.fields at h
    rw [Out.bind_eq_ok] at h
    obtain ⟨o, -, h⟩ := h
    cases o with
    | none =>
      simp only at h
      split at h
      · cases h
      · exact (fields_sublist fs h).cons _
    | some σ' =>
      simp only [Out.bind_eq_ok, Out.ok.injEq] at h
      obtain ⟨v, -, m', hm', rfl⟩ := h
      exact (fields_sublist fs hm').cons_cons _

/-- Records of hydrated trees have their keys in increasing order, each once. -/
theorem hydrate_wf {R : Type} [DecidableEq R] (c : HyCtx R) (hreg : c.reg.WFConstants) (n : Nat) (g : Option R) (ref : R)
    (inputs : List R) (v : TypedValue R) (e : Hydrate.hydrate c n g ref inputs = .ok v) : v.untype.WF := by
  induction n generalizing g ref inputs v with
  | zero => simp [Hydrate.hydrate] at e
  | succ n ih =>
    unfold Hydrate.hydrate at e
    split at e
    · simp at e
    · rename_i l hl
      split at e
      · simp at e
      · cases l with
        | never => simp [Hydrate.layout] at e
        | always => simp [Hydrate.layout] at e; subst e; exact .literal _
        | unit l =>
          simp only [Hydrate.layout, Out.bind_eq_ok, Out.ok.injEq] at e
          obtain ⟨_, _, rfl⟩ := e
          exact hreg ref _ hl
        | boolean l =>
          obtain ⟨t, ht, rfl⟩ := Hydrate.map_literal_ok e
          obtain ⟨b, rfl⟩ := Hydrate.hydrateData_ok c ht
          exact .literal _
        | number l =>
          obtain ⟨t, ht, rfl⟩ := Hydrate.map_literal_ok e
          obtain ⟨b, rfl⟩ := Hydrate.hydrateData_ok c ht
          exact .literal _
        | byteString l =>
          obtain ⟨t, ht, rfl⟩ := Hydrate.map_literal_ok e
          obtain ⟨b, rfl⟩ := Hydrate.hydrateData_ok c ht
          exact .literal _
        | textString l =>
          obtain ⟨t, ht, rfl⟩ := Hydrate.map_literal_ok e
          obtain ⟨b, rfl⟩ := Hydrate.hydrateData_ok c ht
          exact .literal _
        | id l =>
          obtain ⟨t, ht, rfl⟩ := Hydrate.map_literal_ok e
          simp only [Hydrate.hydrateId, Out.bind_eq_ok] at ht
          obtain ⟨_, _, r, _, ht⟩ := ht
          split at ht
          · simp only [Out.ok.injEq] at ht
            subst ht
            exact .literal _
          · simp at ht
        | sum l =>
          simp only [Hydrate.layout, Out.bind_eq_ok] at e
          obtain ⟨σ, _, e⟩ := e
          rcases Hydrate.variants_ok c (A := fun _ v => v.untype.WF) (fun g r i v => ih g r i v) e with
            ⟨_, _, h, _⟩ | ⟨k, variant, w, h1, h2, rfl⟩
          · simp at h
          · exact h2
        | product l =>
          simp only [Hydrate.layout, Out.bind_eq_ok, Out.ok.injEq] at e
          obtain ⟨σ, _, m, hm, rfl⟩ := e
          obtain ⟨h1, -⟩ := Hydrate.fields_ok c (A := fun _ v => v.untype.WF) (fun g r i v => ih g r i v) hm
          obtain ⟨h3, h4⟩ := hreg ref _ hl
          have hsub := fields_sublist _ hm
          simp only [TypedValue.untype, TypedValue.untypeMap_eq]
          refine .map _ ?_ ?_ ?_
          · have := List.Pairwise.sublist hsub h3
            unfold StrictlyIncreasing
            rw [List.pairwise_map] at this ⊢
            exact this
          · intro e he
            obtain ⟨e, he', rfl⟩ := List.mem_map.1 he
            obtain ⟨f, hf, -⟩ := h1 e.1 e.2 he'
            exact h4 _ hf
          · intro e he
            obtain ⟨e, he', rfl⟩ := List.mem_map.1 he
            obtain ⟨f, -, hv⟩ := h1 e.1 e.2 he'
            exact hv
        | unordered l =>
          simp only [Hydrate.layout, Out.bind_eq_ok, Out.ok.injEq] at e
          obtain ⟨σ, _, items, hi, rfl⟩ := e
          have := Hydrate.unorderedItems_ok c (A := fun _ v => v.untype.WF) (fun g r i v => ih g r i v) hi
          simp only [TypedValue.untype, TypedValue.untypeList_eq]
          refine .list _ fun v hv => ?_
          obtain ⟨v, hv', rfl⟩ := List.mem_map.1 hv
          exact this v ((sortBy_perm _ _).mem_iff.1 hv')
        | ordered l =>
          simp only [Hydrate.layout, Out.bind_eq_ok, Out.ok.injEq] at e
          obtain ⟨σ, _, head, _, tail, _, items, hi, rfl⟩ := e
          have := Hydrate.nodes_ok c (A := fun _ v => v.untype.WF) (fun g r i v => ih g r i v) hi
          simp only [TypedValue.untype, TypedValue.untypeList_eq]
          refine .list _ fun v hv => ?_
          obtain ⟨v, hv', rfl⟩ := List.mem_map.1 hv
          exact this v hv'
        | sized l =>
          simp only [Hydrate.layout, Out.bind_eq_ok, Out.ok.injEq] at e
          obtain ⟨σ, _, items, hi, rfl⟩ := e
          obtain ⟨h1, h2⟩ := Hydrate.sizedItems_ok c (A := fun _ v => v.untype.WF) (fun g r i v => ih g r i v) hi
          simp only [TypedValue.untype, TypedValue.untypeList_eq]
          refine .list _ fun v hv => ?_
          obtain ⟨v, hv', rfl⟩ := List.mem_map.1 hv
          obtain ⟨i, hi⟩ := zip_mem_right h1.symm hv'
          exact h2 _ hi

/-! ## CBOR -/

/-- Neither a panic, nor a lack of time. -/
def Out.Ends {ε α : Type} (x : Out ε α) : Prop := (∃ a, x = .ok a) ∨ ∃ e, x = .err e

theorem Out.Ends.bind {ε α β : Type} {x : Out ε α} {f : α → Out ε β} (hx : x.Ends) (hf : ∀ a, (f a).Ends) : (x.bind f).Ends := by
  rcases hx with ⟨a, rfl⟩ | ⟨e, rfl⟩
  · exact hf a
  · exact .inr ⟨e, rfl⟩

theorem numberCbor_ends {ε : Type} (toF64 : Rat → F) {n : Rat} (h : n ≠ 0) : ((Number.toCbor toF64 n).lift : Out ε (Cbor F)).Ends := by
  have hn : n.num ≠ 0 := fun h' => h (Rat.num_eq_zero.1 h')
  simp only [Number.toCbor, Number.firstU64Digit, hn, if_false, Out.ofOption, Out.bind_ok]
  split
  · split <;> exact .inl ⟨_, rfl⟩
  · exact .inl ⟨_, rfl⟩

mutual
theorem valueCbor_ends {ε : Type} (toF64 : Rat → F) (collect : List (Cbor F × Cbor F) → List (Cbor F × Cbor F)) : (v : Value) →
    v.AllNumbers (· ≠ 0) → ((v.toCbor toF64 collect).lift : Out ε (Cbor F)).Ends
  | .literal .unit, _ => .inl ⟨_, rfl⟩
  | .literal (.boolean b), _ => .inl ⟨_, rfl⟩
  | .literal (.textString b), _ => .inl ⟨_, rfl⟩
  | .literal (.byteString b), _ => .inl ⟨_, rfl⟩
  | .literal (.number n), h => by
    cases h with | number _ h => simp only [Value.toCbor]; exact numberCbor_ends toF64 h
  | .list l, h => by
    cases h with
    | list _ h =>
      simp only [Value.toCbor, lift_bind]
      exact (itemsCbor_ends toF64 collect l h).bind fun _ => .inl ⟨_, rfl⟩
  | .map m, h => by
    cases h with
    | map _ h h' =>
      simp only [Value.toCbor, lift_bind]
      exact (entriesCbor_ends toF64 collect m fun e he => ⟨h e he, h' e he⟩).bind fun _ => .inl ⟨_, rfl⟩

theorem itemsCbor_ends {ε : Type} (toF64 : Rat → F) (collect : List (Cbor F × Cbor F) → List (Cbor F × Cbor F)) : (l : List Value) →
    (∀ v ∈ l, v.AllNumbers (· ≠ 0)) → ((Value.itemsToCbor toF64 collect l).lift : Out ε (List (Cbor F))).Ends
  | [], _ => .inl ⟨_, rfl⟩
  | v :: l, h => by
    simp only [Value.itemsToCbor, lift_bind]
    exact (valueCbor_ends toF64 collect v (h v (by simp))).bind fun _ =>
      (itemsCbor_ends toF64 collect l fun v hv => h v (by simp [hv])).bind fun _ => .inl ⟨_, rfl⟩

theorem entriesCbor_ends {ε : Type} (toF64 : Rat → F) (collect : List (Cbor F × Cbor F) → List (Cbor F × Cbor F)) :
    (m : List (Value × Value)) → (∀ e ∈ m, e.1.AllNumbers (· ≠ 0) ∧ e.2.AllNumbers (· ≠ 0)) →
    ((Value.entriesToCbor toF64 collect m).lift : Out ε (List (Cbor F × Cbor F))).Ends
  | [], _ => .inl ⟨_, rfl⟩
  | (k, v) :: m, h => by
    simp only [Value.entriesToCbor, lift_bind]
    exact (valueCbor_ends toF64 collect k (h (k, v) (by simp)).1).bind fun _ =>
      (valueCbor_ends toF64 collect v (h (k, v) (by simp)).2).bind fun _ =>
      (entriesCbor_ends toF64 collect m fun v hv => h v (by simp [hv])).bind fun _ => .inl ⟨_, rfl⟩
end

theorem addTag_ends {R ε : Type} {tagOf : R → Out ε (Option Nat)} {ty : R} (h : (tagOf ty).Ends) (c : Cbor F) :
    (addTag tagOf (some ty) c).Ends := by
  rw [addTag]
  refine h.bind fun t => ?_
  cases t <;> exact .inl ⟨_, rfl⟩

theorem literalCbor_ends {R ε : Type} (toF64 : Rat → F) (l : TypedLiteral R) (h : l.untype.AllNumbers (· ≠ 0)) :
    ((l.toCbor toF64).lift : Out ε (Cbor F)).Ends := by
  cases l with
  | number n ty => cases h with | number _ h => exact numberCbor_ends toF64 h
  | _ => exact .inl ⟨_, rfl⟩

section Tagged

variable {R ε : Type} {reg : Registry R} {isIri : String → Bool} {tagOf : R → Out ε (Option Nat)}
  (ht : ∀ r l, reg r = some l → (tagOf r).Ends) (toF64 : Rat → F) (collect : List (Cbor F × Cbor F) → List (Cbor F × Cbor F))

include ht

mutual
/-- All the layouts of a hydrated tree are found. -/
theorem taggedCbor_ends : (v : TypedValue R) → (ref : R) → Annotated reg isIri ref v → v.untype.AllNumbers (· ≠ 0) →
    (v.toTaggedCbor toF64 collect tagOf).Ends
  | .always v, ref, _, hn => by
    simp only [TypedValue.toTaggedCbor]
    exact (valueCbor_ends toF64 collect v hn).bind fun _ => .inl ⟨_, rfl⟩
  | .literal l, ref, h, hn => by
    simp only [TypedValue.toTaggedCbor]
    refine (literalCbor_ends toF64 l hn).bind fun _ => addTag_ends ?_ _
    cases h with
    | unit h => exact ht _ _ h
    | boolean _ h => exact ht _ _ h
    | number _ h => exact ht _ _ h
    | byteString _ h => exact ht _ _ h
    | textString _ h => exact ht _ _ h
    | id _ h _ => exact ht _ _ h
  | .variant v ty i, ref, h, hn => by
    cases h with
    | sum x _ _ h _ hv =>
      simp only [TypedValue.toTaggedCbor]
      exact (taggedCbor_ends v _ hv hn).bind fun _ => addTag_ends (ht _ _ h) _
  | .map m ty, ref, h, hn => by
    cases h with
    | product _ h h1 h2 _ =>
      simp only [TypedValue.toTaggedCbor]
      simp only [TypedValue.untype, TypedValue.untypeMap_eq] at hn
      cases hn with
      | map _ h3 h4 =>
        refine (taggedEntries_ends m (fun e he => ?_) fun e he => ?_).bind fun _ => addTag_ends (ht _ _ h) _
        · obtain ⟨f, hf⟩ := h1 e.1 e.2 he
          exact ⟨_, h2 e.1 e.2 f he hf⟩
        · exact ⟨h3 _ (List.mem_map.2 ⟨e, he, rfl⟩), h4 _ (List.mem_map.2 ⟨e, he, rfl⟩)⟩
  | .list l ty, ref, h, hn => by
    simp only [TypedValue.untype, TypedValue.untypeList_eq] at hn
    simp only [TypedValue.toTaggedCbor]
    have hn' : ∀ v ∈ l, v.untype.AllNumbers (· ≠ 0) := by
      cases hn with
      | list _ h => exact fun v hv => h _ (List.mem_map.2 ⟨v, hv, rfl⟩)
    have key : (∃ a, reg ty = some a) ∧ ∀ v ∈ l, ∃ ref', Annotated reg isIri ref' v := by
      cases h with
      | unordered _ h h' => exact ⟨⟨_, h⟩, fun v hv => ⟨_, h' v hv⟩⟩
      | ordered _ h h' => exact ⟨⟨_, h⟩, fun v hv => ⟨_, h' v hv⟩⟩
      | sized _ h hlen h' =>
        refine ⟨⟨_, h⟩, fun v hv => ?_⟩
        obtain ⟨i, hi⟩ := zip_mem_right hlen.symm hv
        exact ⟨_, h' _ hi⟩
    obtain ⟨⟨a, ha⟩, hl⟩ := key
    exact (taggedItems_ends l hl hn').bind fun _ => addTag_ends (ht _ _ ha) _

theorem taggedItems_ends : (l : List (TypedValue R)) → (∀ v ∈ l, ∃ ref, Annotated reg isIri ref v) →
    (∀ v ∈ l, v.untype.AllNumbers (· ≠ 0)) → (TypedValue.itemsToTaggedCbor toF64 collect tagOf l).Ends
  | [], _, _ => by simp only [TypedValue.itemsToTaggedCbor]; exact .inl ⟨_, rfl⟩
  | v :: l, h, hn => by
    obtain ⟨ref, hv⟩ := h v (by simp)
    simp only [TypedValue.itemsToTaggedCbor]
    exact (taggedCbor_ends v ref hv (hn v (by simp))).bind fun _ =>
      (taggedItems_ends l (fun v hv => h v (by simp [hv])) fun v hv => hn v (by simp [hv])).bind fun _ => .inl ⟨_, rfl⟩

theorem taggedEntries_ends : (m : List (Value × TypedValue R)) → (∀ e ∈ m, ∃ ref, Annotated reg isIri ref e.2) →
    (∀ e ∈ m, e.1.AllNumbers (· ≠ 0) ∧ e.2.untype.AllNumbers (· ≠ 0)) →
    (TypedValue.entriesToTaggedCbor toF64 collect tagOf m).Ends
  | [], _, _ => by simp only [TypedValue.entriesToTaggedCbor]; exact .inl ⟨_, rfl⟩
  | (k, v) :: m, h, hn => by
    obtain ⟨ref, hv⟩ := h (k, v) (by simp)
    simp only [TypedValue.entriesToTaggedCbor]
    exact (valueCbor_ends toF64 collect k (hn (k, v) (by simp)).1).bind fun _ =>
      (taggedCbor_ends v ref hv (hn (k, v) (by simp)).2).bind fun _ =>
      (taggedEntries_ends m (fun e he => h e (by simp [he])) fun e he => hn e (by simp [he])).bind fun _ => .inl ⟨_, rfl⟩
end

end Tagged

theorem tagOfLiterals_ends : (ls : List RdfLit) → (tagOfLiterals ls).Ends
  | [] => .inr ⟨_, rfl⟩
  | l :: ls => by
    rw [tagOfLiterals]
    split
    · split
      · split
        · exact .inl ⟨_, rfl⟩
        · exact .inr ⟨_, rfl⟩
      · exact .inr ⟨_, rfl⟩
    · exact tagOfLiterals_ends ls

/-- The tag of a layout of the registry is found, or reported as invalid. -/
theorem tagOf_ends (env : FormatEnv F) (args : CliArgs) (layouts : LayoutMap Term) (r : Term) (l : Layout Term)
    (h : env.registry args layouts r = some l) : (env.tagOf args layouts r).Ends := by
  have : ∃ props, env.extra args layouts r = some props := by
    unfold FormatEnv.extra
    unfold FormatEnv.registry Registry.including Registry.union LayoutMap.registry at h
    cases hl : layouts.lookup r with
    | some x => exact ⟨x.2, rfl⟩
    | none =>
      simp only [hl, Option.map_none, Option.none_or] at h ⊢
      rw [h]
      exact ⟨[], rfl⟩
  obtain ⟨props, hp⟩ := this
  simp only [FormatEnv.tagOf, getLayoutTag, hp, Out.ofOption, Out.bind_ok]
  split
  · exact tagOfLiterals_ends _
  · exact .inl ⟨_, rfl⟩

end Verif
