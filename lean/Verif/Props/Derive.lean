import Verif.DeriveEnumExample
import Verif.DeriveRange

/-!
# Properties C61 – C63 (code derived for layouts)

Derived deserialization and serialization (`#[derive(DeserializeLd, SerializeLd)]`) are compared with the generic
`hydrate` and `dehydrate` for the layout the type is derived from. The specifications are in `Verif/DeriveSpec.lean`
(`UpToOrder`, `HasType` and what is assumed of the Rust types), `Verif/HydrateSpec.lean` (`Meaning`) and
`Verif/RoundTripSpec.lean` (`SameTree`).
-/

set_option linter.unusedSectionVars false

namespace Verif.Props

open Verif.Hydrate Verif.Derived

variable {R : Type} [DecidableEq R]

/-! ## C61: reading -/

/-- **C61** (from generic to derived). Whatever `hydrate` reads with a layout, the code derived for that layout reads
too, and it is the same up to the order of unordered lists — provided the interpretation knows the resources of the layout,
the Rust types can hold the literals of the dataset, and at most one variant of an enumeration matches (`DsTotal`).

Missing for the full property: without these conditions it does not hold; see `C61_violated`. -/
theorem C61_derived_reads_hydrated_partial (c : DsCtx R) (x : Xsd) (hx : DsLaws c x) (ht : DsTotal c x) (hreg : c.reg.Closed)
    (hds : c.ds.Nodup) (le : TypedValue R → TypedValue R → Bool) (hle : TotalOrder le) (n : Nat) (g : Option R) (ref : R)
    (inputs : List R) (w : TypedValue R) (h : hydrate (c.toHy x le) n g ref inputs = .ok w) :
    ∃ v N, (∀ m, N ≤ m → deserialize c m g ref inputs = .ok v) ∧ UpToOrder c.reg v w := by
  have hm := ((C04_hydrate_meaning (c.toHy x le) hreg hds hle n g ref inputs).1 w h n (Nat.le_refl _) w).2 rfl
  obtain ⟨v, ⟨N, hN⟩, hv⟩ := meaning_deserialize c x hx hreg hds ht le n g ref inputs w hm
  exact ⟨v, N, hN, hv⟩

/-- **C61** (from derived to generic). Whatever derived code reads is a meaning of the layout, up to the order of
unordered lists; so `hydrate` does not fail on it, and where `hydrate` returns a tree it is the same one. The types have to
read literals as XML Schema does (`DsLaws`), and the identifiers must not be blank.

Missing for the full property: `hydrate` may run for ever, on a variant that derived code does not try. -/
theorem C61_hydrate_reads_derived_partial (c : DsCtx R) (x : Xsd) (hx : DsLaws c x) (hreg : c.reg.Closed) (hwt : c.reg.WellTyped)
    (hds : c.ds.Nodup) (le : TypedValue R → TypedValue R → Bool) (hle : TotalOrder le) (n : Nat) (g : Option R) (ref : R)
    (inputs : List R) (hin : ∀ l k, c.reg ref = some l → l.inputCount = some k → inputs.length = k) (v : TypedValue R)
    (h : deserialize c n g ref inputs = .ok v) (hv : AllIds c.NotBlank v) :
    (∃ w, Meaning (c.toHy x le) n g ref inputs w ∧ UpToOrder c.reg v w) ∧
    (∀ e, hydrate (c.toHy x le) n g ref inputs ≠ .err e) ∧
    (∀ w, hydrate (c.toHy x le) n g ref inputs = .ok w → UpToOrder c.reg v w) := by
  have hm := deserialize_meaning c hreg hwt hds x hx n g ref inputs hin v h hv
  obtain ⟨w, hw, hvw⟩ := (meaning_order (c.toHy x le) anyOrder le (fun _ _ => .inl rfl) (fun _ _ _ _ _ => rfl) hle.total
    hle.trans n g ref inputs).1 v hm
  refine ⟨⟨w, hw, hvw⟩, fun e he => ?_, fun w' hw' => ?_⟩
  · exact (C04_hydrate_meaning (c.toHy x le) hreg hds hle n g ref inputs).2 e he n (Nat.le_refl _) w hw
  · have := ((C04_hydrate_meaning (c.toHy x le) hreg hds hle n g ref inputs).1 w' hw' n (Nat.le_refl _) w).1 hw
    exact this ▸ hvw

/-- **C61** (equality). Without unordered lists, the two trees are equal. -/
theorem C61_ordered_equal (c : DsCtx R) (hno : ∀ ref l, c.reg ref ≠ some (.unordered l)) (v w : TypedValue R)
    (h : UpToOrder c.reg v w) : v = w :=
  UpToOrder.eq_of_ordered hno h

/-- **C61** (no panic). Derived deserialization does not panic, when every variable that a layout uses is bound by its
patterns. -/
theorem C61_no_panic (c : DsCtx R) (hreg : c.reg.Closed) (hwt : c.reg.WellTyped) (hds : c.ds.Nodup)
    (hder : ∀ ref l, c.reg ref = some l → c.prim ref = none → l.Derivable)
    (hprim : ∀ ref p, c.prim ref = some p → ∃ l, c.reg ref = some l ∧ l.inputCount = some 1) (n : Nat) (g : Option R)
    (ref : R) (inputs : List R) (hin : ∀ l k, c.reg ref = some l → l.inputCount = some k → inputs.length = k)
    (hdef : (c.reg ref).isSome) : deserialize c n g ref inputs ≠ .panic :=
  deserialize_ne_panic c hreg hwt hds hder hprim n g ref inputs hin hdef

/-- **C61** (integers). The integers read by derived code, at any depth, are within the bounds of their Rust types. -/
theorem C61_integers_in_range (c : DsCtx R) (x : Xsd) (hx : DsLaws c x) (n : Nat) (g : Option R) (ref : R) (inputs : List R)
    (v : TypedValue R) (h : deserialize c n g ref inputs = .ok v) : AllLiterals c.Fits v :=
  deserialize_fits hx n g ref inputs v h

/-- **C61** (errors). For a structure, an enumeration, a set or a unit type whose resources are known to the interpretation,
derived code reports missing data when no substitution matches the patterns of the layout, and an ambiguity when several do. -/
theorem C61_errors (c : DsCtx R) (hreg : c.reg.Closed) (hds : c.ds.Nodup) (hk : ∀ r, c.known r = true) (n : Nat) (g : Option R)
    (ref : R) (inputs : List R) (hp : c.prim ref = none) (intro : Nat) (pats : List (QuadPat R))
    (hl : (∃ l, c.reg ref = some (.product l) ∧ inputs.length = l.input ∧ l.intro = intro ∧ l.dataset = pats) ∨
      (∃ l, c.reg ref = some (.sum l) ∧ inputs.length = l.input ∧ l.intro = intro ∧ l.dataset = pats) ∨
      (∃ l, c.reg ref = some (.unordered l) ∧ inputs.length = l.input ∧ l.intro = intro ∧ l.dataset = pats) ∨
      ∃ l, c.reg ref = some (.unit l) ∧ inputs.length = 1 ∧ l.intro = intro ∧ l.dataset = pats) :
    ((∀ τ, ¬IsMatch c.ds (inputs.map some ++ List.replicate intro none) (inGraph g pats) τ) →
      deserialize c (n + 1) g ref inputs = .err .missingData) ∧
    (∀ τ τ', IsMatch c.ds (inputs.map some ++ List.replicate intro none) (inGraph g pats) τ →
      IsMatch c.ds (inputs.map some ++ List.replicate intro none) (inGraph g pats) τ' → τ ≠ τ' →
      deserialize c (n + 1) g ref inputs = .err .dataAmbiguity) := by
  have hkp : pats.all (knowsQuad c) = true := by
    rw [List.all_eq_true]
    intro q _
    have h : ∀ p, knows c p = true := fun p => by cases p <;> simp [knows, hk]
    rcases q with ⟨s, p, o, _ | gr⟩ <;> simp [knowsQuad, h]
  have key : PatsBelow (inputs.length + intro) pats →
      ((∀ τ, ¬IsMatch c.ds (inputs.map some ++ List.replicate intro none) (inGraph g pats) τ) →
        requiredMatch c ((Subst.fromInputs inputs).intro intro) pats g = .err .missingData) ∧
      (∀ τ τ', IsMatch c.ds (inputs.map some ++ List.replicate intro none) (inGraph g pats) τ →
        IsMatch c.ds (inputs.map some ++ List.replicate intro none) (inGraph g pats) τ' → τ ≠ τ' →
        requiredMatch c ((Subst.fromInputs inputs).intro intro) pats g = .err .dataAmbiguity) := fun hc =>
    requiredMatch_err c hds _ _ g (Hydrate.declared_ext (σ := []) hc (by simp [Subst.fromInputs])) hkp
  rcases hl with ⟨l, h, hi, rfl, rfl⟩ | ⟨l, h, hi, rfl, rfl⟩ | ⟨l, h, hi, rfl, rfl⟩ | ⟨l, h, hi, rfl, rfl⟩ <;>
    have hc := hreg ref _ h <;> simp only [Layout.Closed] at hc
  · obtain ⟨k1, k2⟩ := key (hi ▸ hc.1)
    refine ⟨fun hm => ?_, fun τ τ' ht ht' hne => ?_⟩
    · simp [deserialize, hp, h, Derived.layout, k1 hm]
    · simp [deserialize, hp, h, Derived.layout, k2 τ τ' ht ht' hne]
  · obtain ⟨k1, k2⟩ := key (hi ▸ hc.1)
    refine ⟨fun hm => ?_, fun τ τ' ht ht' hne => ?_⟩
    · simp [deserialize, hp, h, Derived.layout, k1 hm]
    · simp [deserialize, hp, h, Derived.layout, k2 τ τ' ht ht' hne]
  · obtain ⟨k1, k2⟩ := key (hi ▸ hc.1)
    refine ⟨fun hm => ?_, fun τ τ' ht ht' hne => ?_⟩
    · simp [deserialize, hp, h, Derived.layout, k1 hm]
    · simp [deserialize, hp, h, Derived.layout, k2 τ τ' ht ht' hne]
  · obtain ⟨k1, k2⟩ := key (hi ▸ hc)
    refine ⟨fun hm => ?_, fun τ τ' ht ht' hne => ?_⟩
    · simp [deserialize, hp, h, Derived.layout, k1 hm]
    · simp [deserialize, hp, h, Derived.layout, k2 τ τ' ht ht' hne]

-- Resource 999 is not a person.
example : deserialize DeriveExample.ctx 5 none 0 [999] = .err .missingData :=
  (C61_errors DeriveExample.ctx (DeriveExample.reg_closed _ DeriveExample.either_closed) DeriveExample.ds_nodup
    DeriveExample.total.known 4 none 0 [999] rfl 0 _ (.inl ⟨_, rfl, rfl, rfl, rfl⟩)).1 fun τ h => by
      obtain ⟨qd, hq, hs, -⟩ := h.sat (Example.q (.var 0) (.res 10) (.res 11)) (by simp [inGraph, Example.q])
      have hs : qd.s = 999 := by
        have := h.keeps 0 999 rfl
        simp only [Example.q, Pattern.Denotes] at hs
        rw [hs] at this
        exact Option.some.inj this
      exact absurd hs ((by decide +kernel : ∀ q ∈ DeriveExample.ctx.ds, q.s ≠ 999) qd hq)

-- An enumeration of a structure (with optional fields, an integer and a set) and a list meets the hypotheses.
example : ∃ v N, (∀ m, N ≤ m → deserialize DeriveExample.ctx m none 4 [100] = .ok v) ∧
    UpToOrder DeriveExample.ctx.reg v (.variant DeriveExample.personSorted 4 0) :=
  C61_derived_reads_hydrated_partial DeriveExample.ctx DeriveExample.xsd DeriveExample.laws DeriveExample.total
    (DeriveExample.reg_closed _ DeriveExample.either_closed) DeriveExample.ds_nodup _ DeriveExample.le_total 5 none 4 [100] _
    DeriveExample.hydrated_person

-- The age of the person is an unsigned byte.
example : AllLiterals DeriveExample.ctx.Fits (.variant DeriveExample.personTree 4 0) :=
  C61_integers_in_range DeriveExample.ctx DeriveExample.xsd DeriveExample.laws 5 none 4 [100] _ DeriveExample.derived_person

theorem Witness.derived_arity : ∀ l k, DeriveExample.ctx.reg 4 = some l → l.inputCount = some k → [100].length = k := by
  rintro l k ⟨⟩ ⟨⟩
  rfl

theorem Witness.derived_ids : AllIds DeriveExample.ctx.NotBlank (.variant DeriveExample.personTree 4 0) := by
  refine .variant (.map ?_)
  simp only [List.mem_cons, List.not_mem_nil, or_false, forall_eq_or_imp, forall_eq]
  refine ⟨.literal _ (by simp), .literal _ (by simp), .list ?_⟩
  simp only [List.mem_cons, List.not_mem_nil, or_false, forall_eq_or_imp, forall_eq]
  exact ⟨.literal _ (by simp), .literal _ (by simp)⟩

-- The tags are not read in the same order.
example : UpToOrder DeriveExample.ctx.reg (.variant DeriveExample.personTree 4 0) (.variant DeriveExample.personSorted 4 0) ∧
    DeriveExample.personTree ≠ DeriveExample.personSorted :=
  ⟨(C61_hydrate_reads_derived_partial DeriveExample.ctx DeriveExample.xsd DeriveExample.laws
    (DeriveExample.reg_closed _ DeriveExample.either_closed) DeriveExample.reg_wellTyped DeriveExample.ds_nodup _
    DeriveExample.le_total 5 none 4 [100] Witness.derived_arity _ DeriveExample.derived_person Witness.derived_ids).2.2 _
    DeriveExample.hydrated_person, by decide +kernel⟩

theorem Witness.derivable : ∀ ref l, DeriveExample.ctx.reg ref = some l → DeriveExample.ctx.prim ref = none →
    l.Derivable := by
  intro ref l h _
  refine DeriveExample.reg_cases (P := fun _ l => l.Derivable) DeriveExample.either ?_ ?_ ?_ ?_ ?_ ?_ ?_ ref l h <;>
    simp [DeriveExample.person, Example.text, Example.tags, Example.rdfList, DeriveExample.either, DeriveExample.age,
      DeriveExample.ident, plainData, Layout.Derivable, Pattern.BoundIn, ValueFormat.BoundIn, boundVars, patsVars,
      QuadPat.vars, Pattern.vars, Example.q]

example (n : Nat) : deserialize DeriveExample.ctx n none 4 [100] ≠ .panic :=
  C61_no_panic DeriveExample.ctx (DeriveExample.reg_closed _ DeriveExample.either_closed) DeriveExample.reg_wellTyped
    DeriveExample.ds_nodup Witness.derivable
    (by
      intro ref p h
      obtain ⟨l, h1, h2⟩ := DeriveExample.laws.prim ref p h
      exact ⟨l, h1, describes_inputCount DeriveExample.ctx h2⟩) n none 4 [100] Witness.derived_arity rfl

/-- **C61** (violations). Derived code and `hydrate` do not agree in general.
1. In an enumeration, a variant whose pattern matches but that cannot be read makes derived code fail, even when another
   variant can be read; `hydrate` takes the other variant.
2. An optional field whose property is unknown to the interpretation makes derived code fail; for `hydrate` it is absent.
3. A number too large for the Rust type makes derived code fail.
4. A blank node is a value of the type `Id`; `hydrate` does not read it. -/
theorem C61_violated :
    (deserialize (DeriveExample.ctxWith (fun _ => true) Example.either "30") 5 none 4 [100] = .err .missingData ∧
      hydrate ((DeriveExample.ctxWith (fun _ => true) Example.either "30").toHy DeriveExample.xsd (TypedValue.le natCode))
        5 none 4 [100] = .ok (.variant DeriveExample.personSorted 4 0)) ∧
    (deserialize (DeriveExample.ctxWith (fun r => r != 15) DeriveExample.either "30") 5 none 0 [100] = .err .missingData ∧
      hydrate ((DeriveExample.ctxWith (fun r => r != 15) DeriveExample.either "30").toHy DeriveExample.xsd
        (TypedValue.le natCode)) 5 none 0 [100] = .ok DeriveExample.personSorted) ∧
    ((∀ v, deserialize (DeriveExample.ctxWith (fun _ => true) DeriveExample.either "300") 5 none 5 [104] ≠ .ok v) ∧
      hydrate ((DeriveExample.ctxWith (fun _ => true) DeriveExample.either "300").toHy DeriveExample.xsd
        (TypedValue.le natCode)) 5 none 5 [104] = .ok (.literal (.number 300 5))) ∧
    (deserialize DeriveExample.ctx 5 none 6 [200] = .ok (.literal (.id "_:list" 6)) ∧
      (∀ v, hydrate (DeriveExample.ctx.toHy DeriveExample.xsd (TypedValue.le natCode)) 5 none 6 [200] ≠ .ok v)) := by
  refine ⟨⟨by decide +kernel, by decide +kernel⟩, ⟨by decide +kernel, by decide +kernel⟩, ⟨?_, by decide +kernel⟩,
    ⟨by decide +kernel, ?_⟩⟩
  · have : (match deserialize (DeriveExample.ctxWith (fun _ => true) DeriveExample.either "300") 5 none 5 [104] with
        | .ok _ => false | _ => true) = true := by decide +kernel
    intro v h
    simp [h] at this
  · have : (match hydrate (DeriveExample.ctx.toHy DeriveExample.xsd (TypedValue.le natCode)) 5 none 6 [200] with
        | .ok _ => false | _ => true) = true := by decide +kernel
    intro v h
    simp [h] at this

/-! ## C62: writing -/

/-- **C62** (agreement). For values without enumerations, derived serialization does what `dehydrate` does with the
layout: from every state and every inputs, it writes the same quads and gives the same terms to the same resources. The types
have to print literals as XML Schema does, and the resource described by a literal or an identifier must be its input.

Missing for the full property: enumerations; see `C62_enums_agree_partial`. -/
theorem C62_serialize_is_dehydrate_partial (c : SeCtx) (x : Xsd) (hl : SeLaws c) (ht : SeText c x) (hreg : c.reg.Closed)
    (hwt : c.reg.WellTyped) (hk : c.reg.DistinctKeys) (hns : ∀ ref l, c.reg ref ≠ some (.sum l)) (n : Nat)
    (ref : Term) (v : TypedValue Term) (hv : HasType c.reg ref v) (hid : AllIds (fun s => c.isIri s = true) v)
    (hpr : v.untype.Printable x) (g : Option IRes) (inputs : List IRes)
    (hin : ∀ l k, c.reg ref = some l → l.inputCount = some k → inputs.length = k) (s : DeState) :
    serialize c n v g ref inputs s = Dehydrate.dehydrateWith ⟨c.reg, c.isIri, x⟩ n v.untype g ref inputs s :=
  serialize_agree c x hl ht hreg hwt hk hns n ref v hv hid hpr g inputs hin s

/-- **C62** (enumerations). For values with enumerations, from every state without repeated quads, derived serialization and
`dehydrate` both succeed, write the same quads up to their order, and give the same terms to the same resources — provided the
tree shows which variants the value has (`Decided`).

Missing for the full property: without this condition it does not hold (`C62_violated`), and the resource described by a
literal or an identifier must be its input. -/
theorem C62_enums_agree_partial (c : SeCtx) (x : Xsd) (hl : SeLaws c) (ht : SeText c x) (hreg : c.reg.Closed)
    (hwt : c.reg.WellTyped) (hk : c.reg.DistinctKeys) (ref : Term) (v : TypedValue Term) (hv : HasType c.reg ref v)
    (hdec : Decided c.reg v) (hid : AllIds (fun s => c.isIri s = true) v) (hpr : v.untype.Printable x) :
    ∃ N, ∀ n, N ≤ n → ∀ (g : Option IRes) (inputs : List IRes),
      (∀ l k, c.reg ref = some l → l.inputCount = some k → inputs.length = k) →
      ∀ s : DeState, s.out.Nodup → ∃ t t', serialize c n v g ref inputs s = (.ok (), t) ∧
        Dehydrate.dehydrateWith ⟨c.reg, c.isIri, x⟩ n v.untype g ref inputs s = (.ok (), t') ∧
        t.out.Perm t'.out ∧ t.terms = t'.terms ∧ t.fresh = t'.fresh := by
  obtain ⟨N, hN⟩ := serialize_succeeds c hl hreg hwt hk ref v hv
  refine ⟨N, fun n hn g inputs hin s hs => ?_⟩
  obtain ⟨t, h⟩ := hN n hn g inputs hin s
  have := serialize_sim c x hl ht hreg hwt hk n ref v hv hdec hid hpr g inputs hin [] s s (.refl hs)
  rw [h] at this
  generalize Dehydrate.dehydrateWith ⟨c.reg, c.isIri, x⟩ n v.untype g ref inputs s = r at this ⊢
  cases this with
  | ok _ hn => exact ⟨t, _, h, rfl, hn.perm, hn.terms, hn.fresh⟩

/-- **C62** (success). Derived serialization of a value of the type, enumerations included, always succeeds: it neither
fails nor panics nor runs for ever. -/
theorem C62_serialize_succeeds (c : SeCtx) (hl : SeLaws c) (hreg : c.reg.Closed) (hwt : c.reg.WellTyped)
    (hk : c.reg.DistinctKeys) (ref : Term) (v : TypedValue Term) (hv : HasType c.reg ref v) :
    ∃ N, ∀ n, N ≤ n → ∀ (g : Option IRes) (inputs : List IRes),
      (∀ l k, c.reg ref = some l → l.inputCount = some k → inputs.length = k) →
      ∀ s, ∃ s', serialize c n v g ref inputs s = (.ok (), s') :=
  serialize_succeeds c hl hreg hwt hk ref v hv

/-- The numbers of the example are printable. -/
theorem Witness.chess_printable : SerExample.chess.untype.Printable Example.xsd := by
  have key : ∀ v : Value, (∀ q, v.HasNumber q → q = 0 ∨ q = 1) → v.Printable Example.xsd := by
    intro v h q hq
    rcases h q hq with rfl | rfl
    · exact ⟨"0", by decide +kernel⟩
    · exact ⟨"1", by decide +kernel⟩
  refine key _ fun q hq => ?_
  have hlit : ∀ {l : Literal}, (Value.literal l).HasNumber q → l = .number q := by
    intro l h
    cases h
    rfl
  rw [SerExample.chess_untype] at hq
  simp only [TreeExample.chess, TreeExample.both, TreeExample.alice, TreeExample.bob] at hq
  cases hq with
  | map hm hq =>
    simp only [List.mem_cons, Prod.mk.injEq, List.not_mem_nil, or_false] at hm
    rcases hm with ⟨rfl, rfl⟩ | ⟨rfl, rfl⟩ | ⟨rfl, rfl⟩
    · cases hq with
      | list hm hq =>
        simp only [List.mem_cons, List.not_mem_nil, or_false] at hm
        rcases hm with rfl | rfl
        · cases hq with
          | map hm hq =>
            simp only [List.mem_cons, Prod.mk.injEq, List.not_mem_nil, or_false] at hm
            rcases hm with ⟨rfl, rfl⟩ | ⟨rfl, rfl⟩ | ⟨rfl, rfl⟩
            · have := hlit hq; injection this with this; exact .inr this.symm
            · have := hlit hq; simp at this
            · have := hlit hq; simp at this
        · cases hq with
          | map hm hq =>
            simp only [List.mem_cons, Prod.mk.injEq, List.not_mem_nil, or_false] at hm
            rcases hm with ⟨rfl, rfl⟩ | ⟨rfl, rfl⟩
            · have := hlit hq; simp at this
            · have := hlit hq; simp at this
    · cases hq with
      | list hm hq =>
        simp only [List.mem_cons, List.not_mem_nil, or_false] at hm
        rcases hm with rfl | rfl
        · have := hlit hq; injection this with this; exact .inl this.symm
        · have := hlit hq; injection this with this; exact .inr this.symm
    · cases hq with
      | list hm hq =>
        simp only [List.mem_cons, List.not_mem_nil, or_false] at hm
        rcases hm with rfl | rfl
        · have := hlit hq; simp at this
        · have := hlit hq; simp at this

theorem Witness.club_arity : ∀ l k, SerExample.ctx.reg (.iri "club") = some l → l.inputCount = some k →
    [IRes.input 0].length = k := by
  rintro l k ⟨⟩ ⟨⟩
  rfl

-- A structure with a list of structures, a tuple and a set meets the hypotheses.
example (s : DeState) : serialize SerExample.ctx 6 SerExample.chess none (.iri "club") [.input 0] s =
    Dehydrate.dehydrateWith TreeExample.ctx 6 TreeExample.chess none (.iri "club") [.input 0] s :=
  C62_serialize_is_dehydrate_partial SerExample.ctx Example.xsd SerExample.seLaws SerExample.seText SerExample.closed
    SerExample.wellTyped SerExample.distinctKeys SerExample.noSum 6 (.iri "club") SerExample.chess SerExample.chess_type
    (SerExample.allIds _) Witness.chess_printable none [.input 0] Witness.club_arity s

example := C62_serialize_succeeds SerExample.ctx SerExample.seLaws SerExample.closed SerExample.wellTyped
  SerExample.distinctKeys (.iri "club") SerExample.chess SerExample.chess_type

theorem Witness.logo_arity : ∀ l k, EnumExample.reg (.iri "shapes") = some l → l.inputCount = some k →
    [IRes.input 0].length = k := by
  rintro l k ⟨⟩ ⟨⟩
  rfl

-- A list of circles and squares meets the hypotheses.
example := C62_enums_agree_partial EnumExample.ctx Example.xsd EnumExample.seLaws EnumExample.seText EnumExample.closed
  EnumExample.wellTyped EnumExample.distinctKeys (.iri "shapes") EnumExample.logo EnumExample.logo_type
  EnumExample.logo_decided EnumExample.logo_allIds EnumExample.logo_printable

namespace Witness

/-- An enumeration of two texts. -/
def choice : SumLayout Term :=
  { input := 1, intro := 0, dataset := [],
    variants := [
      { name := "a", intro := 0, value := DeExample.val "text" 0, dataset := [] },
      { name := "b", intro := 0, value := DeExample.val "text" 0, dataset := [] }] }

/-- An identifier layout that introduces the resource it describes. -/
def linked : IdLayout Term :=
  { input := 1, intro := 1, dataset := [DeExample.q (.var 0) (DeExample.c "p") (.var 1)], resource := .var 1, pattern := none }

/-- A text layout that introduces the resource it describes. -/
def note : TextLayout Term :=
  { input := 1, intro := 1, dataset := [DeExample.q (.var 0) (DeExample.c "p") (.var 1)], resource := .var 1,
    datatype := .iri "xsd:string", pattern := none }

/-- These layouts. -/
def oddReg : Registry Term
  | .iri "text" => some (.textString DeExample.text)
  | .iri "choice" => some (.sum choice)
  | .iri "link" => some (.id linked)
  | .iri "note" => some (.textString note)
  | _ => none

/-- The types of these layouts are derived. -/
def odd : SeCtx := { SerExample.ctx with reg := oddReg, prim := fun _ => none }

/-- The generic context. -/
def oddDe : DeCtx := { reg := oddReg, isIri := fun _ => true, xsd := Example.xsd }

end Witness

/-- **C62** (violations). Derived serialization and `dehydrate` do not agree in general.
1. The value of an enumeration says which variant it is, and derived code writes that one. `dehydrate` only has the tree, and
   fails when it fits two variants.
2. An identifier whose resource is introduced by the layout: derived code gives the identifier to the input instead.
3. A literal whose resource is introduced by the layout: derived code panics. -/
theorem C62_violated :
    ((serialize Witness.odd 3 (.variant (SerExample.str "x") (.iri "choice") 0) none (.iri "choice") [.input 0] ⟨[], [], 0⟩).1
        = .ok () ∧
      (Dehydrate.dehydrateWith Witness.oddDe 3 (.text "x") none (.iri "choice") [.input 0] ⟨[], [], 0⟩).1 ≠ .ok ()) ∧
    ((serialize Witness.odd 3 (.literal (.id "alice" (.iri "link"))) none (.iri "link") [.input 0] ⟨[], [], 0⟩).2.terms
        = [(.input 0, .iri "alice")] ∧
      (Dehydrate.dehydrateWith Witness.oddDe 3 (.text "alice") none (.iri "link") [.input 0] ⟨[], [], 0⟩).2.terms
        = [(.anon 0, .iri "alice")]) ∧
    ((serialize Witness.odd 3 (.literal (.textString "x" (.iri "note"))) none (.iri "note") [.input 0] ⟨[], [], 0⟩).1
        = .panic ∧
      (Dehydrate.dehydrateWith Witness.oddDe 3 (.text "x") none (.iri "note") [.input 0] ⟨[], [], 0⟩).1 = .ok ()) := by
  refine ⟨⟨?_, ?_⟩, ⟨?_, ?_⟩, ⟨?_, ?_⟩⟩ <;> decide +kernel

/-! ## C63: round trip -/

/-- **C63.** What derived code writes, derived code reads back: if a value is serialized for a new resource and the result
becomes a dataset of terms, then deserializing it from that dataset gives the same value, up to the order and the repetitions of
unordered lists. The layouts are those of `C17_tree_round_trip_partial`, enumerations included, and as there no ordered list
is empty, the tree fits one variant of each enumeration, and the identifiers of the records are different.

Missing for the full property: layouts outside this class. -/
theorem C63_derived_round_trip_partial (c : SeCtx) (x : Xsd) (hx : XsdLaws x)
    (fromLiteral : Term → String → Option (TypedLiteral Term)) (parseInt : String → Option Int) (hl : SeLaws c)
    (ht : SeText c x) (hreg : c.reg.Closed) (hwt : c.reg.WellTyped) (hk : c.reg.DistinctKeys)
    (hsort : c.reg.Sorted)
    (hu : ∀ ref l, c.reg ref = some (.unit l) → l.const.Sorted) (o : Dehydrate.DeOptions) (hb : BlankNames o)
    (hord : ∀ l, (o.order l).Perm l) (n : Nat) (ref : Term) (htree : TreeLayouts c.reg x ref) (v : TypedValue Term)
    (hv : HasType c.reg ref v) (hid : AllIds (fun s => c.isIri s = true) v) (hpr : v.untype.Printable x)
    (hne : Recoverable c.reg ref v.untype) (hnode : (nodeIds c.reg n ref v.untype).Nodup) (dataset : List (Quad Term))
    (subjects : List Term) (hrun : save c n v ref o = .ok (dataset, subjects))
    (hds : DsLaws (DsCtx.ofTerms c fromLiteral parseInt dataset) x)
    (htot : DsTotal (DsCtx.ofTerms c fromLiteral parseInt dataset) x) :
    ∃ w N, (∀ m, N ≤ m → deserialize (DsCtx.ofTerms c fromLiteral parseInt dataset) m none ref subjects = .ok w) ∧
      SameTree c.reg ref v.untype w.untype :=
  Derived.round_trip c x hx fromLiteral parseInt hl ht hreg hwt hk hsort hu o hb hord n ref htree v hv hid hpr hne hnode
    dataset subjects hrun hds htot

theorem Witness.save_chess : save SerExample.ctx 6 SerExample.chess (.iri "club") DeExample.opts =
    .ok (Witness.chessQuads, [.blank "input0"]) :=
  (save_eq SerExample.ctx Example.xsd SerExample.seLaws SerExample.seText SerExample.closed SerExample.wellTyped
    SerExample.distinctKeys SerExample.noSum 6 (.iri "club") SerExample.chess SerExample.chess_type (SerExample.allIds _)
    Witness.chess_printable DeExample.opts).trans Witness.dehydrate_chess

-- The club, with its 17 quads, is read back.
example : ∃ w N, (∀ m, N ≤ m → deserialize (SerExample.dsCtx Witness.chessQuads) m none (.iri "club") [.blank "input0"]
      = .ok w) ∧
    SameTree TreeExample.reg (.iri "club") SerExample.chess.untype w.untype :=
  C63_derived_round_trip_partial SerExample.ctx Example.xsd Example.xsd_laws SerExample.fromLiteral SerExample.parseInt
    SerExample.seLaws SerExample.seText SerExample.closed SerExample.wellTyped SerExample.distinctKeys
    TreeExample.reg_sorted (fun ref l h => absurd h (SerExample.noUnit ref l)) DeExample.opts TreeExample.opts_blank
    (fun _ => .refl _) 6 (.iri "club") (TreeExample.trees (.iri "club") _ rfl) SerExample.chess SerExample.chess_type
    (SerExample.allIds _) Witness.chess_printable TreeExample.chess_noEmpty TreeExample.chess_ids Witness.chessQuads
    [.blank "input0"] Witness.save_chess (SerExample.dsLaws _) (SerExample.dsTotal _)

-- So are the shapes, with their variants.
example : ∃ w N, (∀ m, N ≤ m → deserialize (EnumExample.dsCtx EnumExample.quads) m none (.iri "shapes") [.blank "input0"]
      = .ok w) ∧
    SameTree EnumExample.reg (.iri "shapes") EnumExample.logo.untype w.untype :=
  C63_derived_round_trip_partial EnumExample.ctx Example.xsd Example.xsd_laws SerExample.fromLiteral SerExample.parseInt
    EnumExample.seLaws EnumExample.seText EnumExample.closed EnumExample.wellTyped EnumExample.distinctKeys
    EnumExample.reg_sorted (fun ref l h => absurd h (EnumExample.noUnit ref l)) DeExample.opts TreeExample.opts_blank
    (fun _ => .refl _) 6 (.iri "shapes") (EnumExample.trees (.iri "shapes") _ rfl) EnumExample.logo EnumExample.logo_type
    EnumExample.logo_allIds EnumExample.logo_printable EnumExample.logo_recoverable EnumExample.logo_ids EnumExample.quads
    [.blank "input0"] EnumExample.save_logo (EnumExample.dsLaws _) (EnumExample.dsTotal _ EnumExample.quads_apart)

end Verif.Props
