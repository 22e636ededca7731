import Verif.Props.Derive
import Verif.Props.ReadBack

/-!
# Property C63, for any patterns and larger datasets

What code derived for layouts writes, it reads back from any dataset that includes what was written and is not ambiguous (C90).
The specifications are in `Verif/DeriveSpec.lean` and `Verif/ReadBackSpec.lean`.
-/

set_option linter.unusedSectionVars false
set_option linter.unusedSimpArgs false

namespace Verif.Props

open Hydrate Dehydrate Derived Keeping

theorem list_of_map_eq {α β : Type} {f : α → β} : ∀ {l l' : List α}, l'.map f = l.map f →
    (∀ i (h : i < l.length) (h' : i < l'.length), f l'[i] = f l[i] → l'[i] = l[i]) → l' = l := by
  intro l l' h h'
  have hlen : l'.length = l.length := by simpa using congrArg List.length h
  refine List.ext_getElem hlen fun i h1 h2 => h' i h2 h1 ?_
  have := congrArg (·[i]?) h
  simpa [h1, h2] using this

/-- Two values of a type with the same tree are equal, when the tree alone tells the variants. -/
theorem typed_eq {reg : Registry Term} {isIri : String → Bool} {ref : Term} {v w : TypedValue Term} (hv : HasType reg ref v)
    (hdec : Decided reg v) (hw : Annotated reg isIri ref w) (he : w.untype = v.untype) : w = v := by
  induction hv generalizing w with
  | unit hr =>
    cases hw <;> rename_i hr' <;> first
      | (rw [hr] at hr'; injection hr' with e; injection e with e; subst e; rfl)
      | simp_all
  | boolean b hr =>
    cases hw <;> simp_all [TypedValue.untype, TypedLiteral.untype]
  | number q hr =>
    cases hw <;> simp_all [TypedValue.untype, TypedLiteral.untype]
  | textString s hr =>
    cases hw <;> simp_all [TypedValue.untype, TypedLiteral.untype, Value.text]
  | id s hr =>
    cases hw <;> simp_all [TypedValue.untype, TypedLiteral.untype, Value.text]
  | @product ref l m hr h1 h2 h3 ih =>
    cases hw <;> first | (simp_all; done) | skip
    case product l' m' k1 k2 k3 hr' =>
      rw [hr] at hr'; injection hr' with e; injection e with e; subst e
      simp only [TypedValue.untype, TypedValue.untypeMap_eq, Value.map.injEq] at he
      cases hdec with | map hdec =>
      congr 1
      refine list_of_map_eq he fun i hi hi' hf => ?_
      simp only [Prod.mk.injEq] at hf
      have hm : (m[i].1, m[i].2) ∈ m := List.getElem_mem _
      have hm' : (m'[i].1, m'[i].2) ∈ m' := List.getElem_mem _
      obtain ⟨f, hin⟩ := k1 _ _ hm'
      refine Prod.ext hf.1 (ih _ _ f hm (hf.1 ▸ hin) (hdec _ hm) (k2 _ _ f hm' hin) hf.2)
  | @unordered ref l vs hr h ih =>
    cases hw <;> first | (simp_all; done) | skip
    case unordered l' vs' k hr' =>
      rw [hr] at hr'; injection hr' with e; injection e with e; subst e
      simp only [TypedValue.untype, TypedValue.untypeList_eq, Value.list.injEq] at he
      cases hdec with | list hdec =>
      congr 1
      refine list_of_map_eq he fun i hi hi' hf => ?_
      exact ih _ (List.getElem_mem _) (hdec _ (List.getElem_mem _)) (k _ (List.getElem_mem _)) hf
  | @ordered ref l vs hr h ih =>
    cases hw <;> first | (simp_all; done) | skip
    case ordered l' vs' k hr' =>
      rw [hr] at hr'; injection hr' with e; injection e with e; subst e
      simp only [TypedValue.untype, TypedValue.untypeList_eq, Value.list.injEq] at he
      cases hdec with | list hdec =>
      congr 1
      refine list_of_map_eq he fun i hi hi' hf => ?_
      exact ih _ (List.getElem_mem _) (hdec _ (List.getElem_mem _)) (k _ (List.getElem_mem _)) hf
  | @sized ref l vs hr hlen h ih =>
    cases hw <;> first | (simp_all; done) | skip
    case sized l' vs' hlen' k hr' =>
      rw [hr] at hr'; injection hr' with e; injection e with e; subst e
      simp only [TypedValue.untype, TypedValue.untypeList_eq, Value.list.injEq] at he
      cases hdec with | list hdec =>
      congr 1
      refine list_of_map_eq he fun i hi hi' hf => ?_
      have hz : (l.items[i], vs[i]) ∈ l.items.zip vs := List.mem_iff_getElem.2 ⟨i, by simp; omega, by simp⟩
      have hz' : (l.items[i], vs'[i]) ∈ l.items.zip vs' := List.mem_iff_getElem.2 ⟨i, by simp; omega, by simp⟩
      exact ih _ hz (hdec _ (List.getElem_mem _)) (k _ hz') hf
  | @sum ref l i x v hr hx h ih =>
    cases hw <;> first | (simp_all; done) | skip
    case sum l' x' w i' hx' k hr' =>
      rw [hr] at hr'; injection hr' with e; injection e with e; subst e
      simp only [TypedValue.untype] at he
      cases hdec with | variant hj hdec =>
      by_cases hii : i' = i
      · subst hii
        rw [hx] at hx'; injection hx' with e; subst e
        rw [ih hdec k he]
      · obtain ⟨-, l', hl', hrej, -⟩ := hj l hr i' x' hii hx'
        rw [← he, Annotated.not_rejects k hl'] at hrej
        exact nomatch hrej

/-- **C63** (any patterns). What derived code writes, derived code reads back: a value is serialized for new resources, and the
result becomes a dataset of terms, in which there may be other quads. If nothing is ambiguous in the dataset — wherever
reading may come to, patterns have one match at most — and it says nothing for the optional fields that the value lacks, then
deserializing from the subjects gives exactly the value. The layouts have no sets, and no value format selects a
named graph; they may have any patterns, any number of inputs, and enumerations whose variants the tree tells. The
names of resources and the lists are told apart as in C85. -/
theorem C63_read_back (c : SeCtx) (x : Xsd) (hx : XsdLaws x)
    (fromLiteral : Term → String → Option (TypedLiteral Term)) (parseInt : String → Option Int) (hl : SeLaws c)
    (ht : SeText c x) (hcl : c.reg.Closed) (hwt : c.reg.WellTyped) (hk : c.reg.DistinctKeys) (hso : c.reg.Sorted)
    (hu : ∀ ref l, c.reg ref = some (.unit l) → l.const.Sorted)
    (hgraph : ∀ ref l, c.reg ref = some l → ∀ f ∈ l.formats, ∀ p, f.graph ≠ some (some p))
    (hno : c.reg.NoVariantIntro) (hbind : ∀ ref l, c.reg ref = some l → l.Binds)
    (hset : ∀ ref l, c.reg ref = some l → l.Settled)
    (o : DeOptions) (hord : ∀ l, (o.order l).Perm l) (n : Nat) (ref : Term) (v : TypedValue Term)
    (hv : HasType c.reg ref v) (hdec : Decided c.reg v) (hid : AllIds (fun s => c.isIri s = true) v)
    (hpr : v.untype.Printable x) (hne : v.untype.NoEmptyList) (hends : EndsFresh c.reg v.untype o)
    (quads : List (Quad Term)) (subjects : List Term) (hrun : save c n v ref o = .ok (quads, subjects))
    (ds : List (Quad Term)) (hnd : ds.Nodup) (hsub : ∀ q ∈ quads, q ∈ ds)
    (hds : DsLaws (DsCtx.ofTerms c fromLiteral parseInt ds) x)
    (htot : DsTotal (DsCtx.ofTerms c fromLiteral parseInt ds) x)
    (le : TypedValue Term → TypedValue Term → Bool) (hle : TotalOrder le)
    (hapart : (HyCtx.ofTerms c.reg x le ds).ToldApart)
    (hun : Unambiguous (HyCtx.ofTerms c.reg x le ds) none ref subjects)
    (hab : Absent (HyCtx.ofTerms c.reg x le ds) none ref subjects v.untype) :
    ∃ N, ∀ m, N ≤ m → deserialize (DsCtx.ofTerms c fromLiteral parseInt ds) m none ref subjects = .ok v := by
  obtain ⟨order, hord', hsave⟩ := save_sim c x hl ht hcl hwt hk n ref v hv hdec hid hpr o hord
  rw [hsave] at hrun
  obtain ⟨w, he, N, hN⟩ := C90_optional ⟨c.reg, c.isIri, x⟩ hx hcl hso hgraph hno hbind n v.untype ref { o with order := order }
    hord' quads subjects hrun le hle ds hnd hsub (fun r _ l h => hset r l h) (HasType.sorted hso hu hv) hne
    ⟨hends.apart, hends.iri, hends.generator, hends.input⟩ hapart hun hab
  have hann := (C06_hydrate_annotated (HyCtx.ofTerms c.reg x le ds) (fun _ => true) (fun _ _ _ => rfl) hk N none
    ref subjects w (hN N (Nat.le_refl _))).1
  obtain ⟨u, M, hM, hu'⟩ := C61_derived_reads_hydrated_partial (DsCtx.ofTerms c fromLiteral parseInt ds) x hds htot hcl hnd le hle
    N none ref subjects w (hN N (Nat.le_refl _))
  have hu' := C61_ordered_equal (DsCtx.ofTerms c fromLiteral parseInt ds) (fun r l h => (hset r _ h).elim) u w hu'
  subst hu'
  rw [typed_eq hv hdec hann he] at hM
  exact ⟨M, hM⟩

/-- **C63** (any patterns, with sets). What derived code writes, derived code reads back: a value is serialized for new resources,
and the result becomes a dataset of terms, in which there may be other quads. If nothing is ambiguous in the dataset —
wherever reading may come to, patterns have one match at most, except those of the items of sets — and it says nothing but the
value, then deserializing from the subjects gives the value, up to the order and repetition of the items of sets. No value
format selects a named graph; layouts may have any patterns, any number of inputs, and enumerations whose variants the tree
tells. The names of resources and the lists are told apart as in C85. -/
theorem C63_read_back_sets (c : SeCtx) (x : Xsd) (hx : XsdLaws x)
    (fromLiteral : Term → String → Option (TypedLiteral Term)) (parseInt : String → Option Int) (hl : SeLaws c)
    (ht : SeText c x) (hcl : c.reg.Closed) (hwt : c.reg.WellTyped) (hk : c.reg.DistinctKeys) (hso : c.reg.Sorted)
    (hu : ∀ ref l, c.reg ref = some (.unit l) → l.const.Sorted)
    (hgraph : ∀ ref l, c.reg ref = some l → ∀ f ∈ l.formats, ∀ p, f.graph ≠ some (some p))
    (hno : c.reg.NoVariantIntro) (hbind : ∀ ref l, c.reg ref = some l → l.Binds)
    (o : DeOptions) (hord : ∀ l, (o.order l).Perm l) (n : Nat) (ref : Term) (v : TypedValue Term)
    (hv : HasType c.reg ref v) (hdec : Decided c.reg v) (hid : AllIds (fun s => c.isIri s = true) v)
    (hpr : v.untype.Printable x) (hrec : Recoverable c.reg ref v.untype) (hends : EndsFresh c.reg v.untype o)
    (quads : List (Quad Term)) (subjects : List Term) (hrun : save c n v ref o = .ok (quads, subjects))
    (ds : List (Quad Term)) (hnd : ds.Nodup) (hsub : ∀ q ∈ quads, q ∈ ds)
    (hds : DsLaws (DsCtx.ofTerms c fromLiteral parseInt ds) x)
    (htot : DsTotal (DsCtx.ofTerms c fromLiteral parseInt ds) x)
    (le : TypedValue Term → TypedValue Term → Bool) (hle : TotalOrder le)
    (hapart : (HyCtx.ofTerms c.reg x le ds).ToldApart)
    (hun : Unambiguous (HyCtx.ofTerms c.reg x le ds) none ref subjects)
    (hex : Exact (HyCtx.ofTerms c.reg x le ds) n none ref subjects v.untype) :
    ∃ w N, (∀ m, N ≤ m → deserialize (DsCtx.ofTerms c fromLiteral parseInt ds) m none ref subjects = .ok w) ∧
      SameTree c.reg ref v.untype w.untype := by
  obtain ⟨order, hord', hsave⟩ := save_sim c x hl ht hcl hwt hk n ref v hv hdec hid hpr o hord
  rw [hsave] at hrun
  have hsort := HasType.sorted hso hu hv
  obtain ⟨w, hs, N, hN⟩ := C90_sets ⟨c.reg, c.isIri, x⟩ hx hcl hso hgraph hno hbind n v.untype ref { o with order := order }
    hord' quads subjects hrun le hle ds hnd hsub hsort ⟨hends.apart, hends.iri, hends.generator, hends.input⟩ hapart hun hex
  have hann := (C06_hydrate_annotated (HyCtx.ofTerms c.reg x le ds) (fun _ => true) (fun _ _ _ => rfl) hk N none
    ref subjects w (hN N (Nat.le_refl _))).1
  obtain ⟨u, M, hM, hu'⟩ := C61_derived_reads_hydrated_partial (DsCtx.ofTerms c fromLiteral parseInt ds) x hds htot hcl hnd le hle
    N none ref subjects w (hN N (Nat.le_refl _))
  exact ⟨u, M, hM, same_of_upToOrder hu' ref _ hsort hann hrec hs⟩

namespace DeriveReadExample

open KeptExample

/-- The types of the layouts of `KeptExample` are derived, except for texts and numbers. -/
def types : SeCtx where
  reg := reg
  prim _ := none
  text := SerExample.ctx.text
  isIri _ := true

theorem cases {P : Term → Layout Term → Prop} (h1 : P (.iri "offer") (.product offer))
    (h2 : P (.iri "text") (.textString DeExample.text)) (h3 : P (.iri "number") (.number DeExample.number))
    (h4 : P (.iri "list") (.ordered DeExample.rdfList)) : ∀ ref l, reg ref = some l → P ref l := by
  intro ref l h
  unfold reg at h
  split at h <;> simp only [Option.some.injEq, reduceCtorEq] at h <;> subst h <;> assumption

theorem isNumber {ref : Term} {l : DataLayout Term} (h : reg ref = some (.number l)) : ref = .iri "number" ∧ l = DeExample.number :=
  cases (P := fun r l => ∀ p, l = .number p → r = .iri "number" ∧ p = DeExample.number) (by simp) (by simp)
    (by rintro p ⟨⟩; exact ⟨rfl, rfl⟩) (by simp) ref _ h l rfl

theorem isText {ref : Term} {l : TextLayout Term} (h : reg ref = some (.textString l)) : ref = .iri "text" ∧ l = DeExample.text :=
  cases (P := fun r l => ∀ p, l = .textString p → r = .iri "text" ∧ p = DeExample.text) (by simp)
    (by rintro p ⟨⟩; exact ⟨rfl, rfl⟩) (by simp) (by simp) ref _ h l rfl

theorem noSum (ref : Term) (l : SumLayout Term) : reg ref ≠ some (.sum l) :=
  fun h => reg_cases (P := fun l => ∀ p, l ≠ .sum p) (by simp) (by simp) (by simp) (by simp) ref _ h l rfl

theorem noBool (ref : Term) (l : DataLayout Term) : reg ref ≠ some (.boolean l) :=
  fun h => reg_cases (P := fun l => ∀ p, l ≠ .boolean p) (by simp) (by simp) (by simp) (by simp) ref _ h l rfl

theorem seLaws : SeLaws types where
  prim _ _ h := nomatch h
  ofInput := by
    refine reg_cases ?_ ?_ ?_ ?_ <;> simp [Layout.OfInput, DeExample.text, DeExample.number]
  datatype := by
    intro ref l d h
    exact reg_cases (P := fun l => ∀ d, l.datatype? = some d → ∃ i, d = .iri i) (by simp [Layout.datatype?])
      (by simp [Layout.datatype?, DeExample.text]) (by simp [Layout.datatype?, DeExample.number]) (by simp [Layout.datatype?])
      ref l h d

theorem seText : SeText types Example.xsd where
  boolType _ _ h := absurd h (noBool _ _)
  numType := by
    intro ref l i h hi
    obtain ⟨rfl, rfl⟩ := isNumber h
    injection hi with hi
    subst hi
    rfl
  boolean _ _ _ h := absurd h (noBool _ _)
  number := by
    intro ref l q s h hq
    simp only [types, SerExample.ctx, hq, Option.getD_some]
  text _ _ _ _ := rfl

/-- The context of deserialization. -/
def reading (ds : List (Quad Term)) : DsCtx Term := .ofTerms types SerExample.fromLiteral SerExample.parseInt ds

theorem dsLaws (ds : List (Quad Term)) : DsLaws (reading ds) Example.xsd where
  prim _ _ h := nomatch h
  datatype := by
    intro ref l d h
    exact reg_cases (P := fun l => ∀ d, l.datatype? = some d →
        (reading ds).irisOf d = [(reading ds).datatypeIri d] ∧
        (reading ds).datatypeIri d ≠ "http://www.w3.org/1999/02/22-rdf-syntax-ns#langString")
      (by simp [Layout.datatype?])
      (by rintro d ⟨⟩; exact ⟨rfl, by simp [reading, DsCtx.ofTerms, DeExample.text]⟩)
      (by rintro d ⟨⟩; exact ⟨rfl, by simp [reading, DsCtx.ofTerms, DeExample.number]⟩)
      (by simp [Layout.datatype?]) ref l h d
  boolType _ _ h := absurd h (noBool _ _)
  numType := by
    intro ref l h
    obtain ⟨rfl, rfl⟩ := isNumber h
    rfl
  boolean _ _ _ _ h := absurd h (noBool _ _)
  number := by
    intro ref l s lit h h'
    obtain ⟨rfl, rfl⟩ := isNumber h
    simp only [reading, DsCtx.ofTerms, SerExample.fromLiteral, Term.iri.injEq, String.reduceEq, if_false, if_true,
      Option.map_eq_some_iff] at h'
    obtain ⟨q, hq, rfl⟩ := h'
    exact ⟨q, hq, rfl⟩
  bytes := by
    intro ref l s h
    exact absurd rfl (reg_cases (P := fun l => ∀ p, l ≠ .byteString p) (by simp) (by simp) (by simp) (by simp) ref _ h l)
  text := by
    intro ref l s lit h h'
    obtain ⟨rfl, rfl⟩ := isText h
    simp only [reading, DsCtx.ofTerms, SerExample.fromLiteral, if_true, Option.some.injEq] at h'
    exact h'.symm
  int _ _ h := by simp [reading, DsCtx.ofTerms, SerExample.parseInt] at h
  single r := by
    simp only [reading, DsCtx.ofTerms]
    split <;> simp

theorem dsTotal (ds : List (Quad Term)) : DsTotal (reading ds) Example.xsd where
  known _ := rfl
  boolean _ _ _ _ h := absurd h (noBool _ _)
  text := by
    intro ref l s h
    obtain ⟨rfl, rfl⟩ := isText h
    exact ⟨_, rfl⟩
  number := by
    intro ref l h r lit _ _ q hq
    obtain ⟨rfl, rfl⟩ := isNumber h
    exact ⟨.number q (.iri "number"), by
      simp only [reading, DsCtx.ofTerms, SerExample.fromLiteral, Term.iri.injEq, String.reduceEq, if_false, if_true, hq,
        Option.map_some]⟩
  discriminated _ _ h := absurd h (noSum _ _)
  noAlways ref h := reg_cases (P := fun l => l ≠ .always) (by simp) (by simp) (by simp) (by simp) ref _ h rfl

theorem result_type : HasType reg (.iri "offer") result := by
  refine .product _ (l := offer) rfl (by decide +kernel) ?_ ?_
  · simp only [offer, List.mem_cons, List.not_mem_nil, or_false, Prod.mk.injEq]
    rintro k f (⟨rfl, rfl⟩ | ⟨rfl, rfl⟩) _
    · exact ⟨_, .inl ⟨rfl, rfl⟩⟩
    · exact ⟨_, .inr ⟨rfl, rfl⟩⟩
  · simp only [offer, List.mem_cons, List.not_mem_nil, or_false, Prod.mk.injEq]
    rintro k v f (⟨rfl, rfl⟩ | ⟨rfl, rfl⟩) (⟨h, rfl⟩ | ⟨h, rfl⟩)
    · exact .number _ (l := DeExample.number) rfl
    · exact absurd h (by decide +kernel)
    · exact absurd h (by decide +kernel)
    · refine .ordered _ (l := DeExample.rdfList) rfl ?_
      simp only [List.mem_cons, List.not_mem_nil, or_false, forall_eq_or_imp, forall_eq]
      exact ⟨.textString _ (l := DeExample.text) rfl, .textString _ (l := DeExample.text) rfl⟩

theorem result_decided : Decided reg result := by
  refine .map ?_
  simp only [List.mem_cons, List.not_mem_nil, or_false, forall_eq_or_imp, forall_eq]
  refine ⟨.literal _, .list ?_⟩
  simp only [List.mem_cons, List.not_mem_nil, or_false, forall_eq_or_imp, forall_eq]
  exact ⟨.literal _, .literal _⟩

theorem result_ids : AllIds (fun s => types.isIri s = true) result := by
  refine .map ?_
  simp only [List.mem_cons, List.not_mem_nil, or_false, forall_eq_or_imp, forall_eq]
  refine ⟨.literal _ (by simp), .list ?_⟩
  simp only [List.mem_cons, List.not_mem_nil, or_false, forall_eq_or_imp, forall_eq]
  exact ⟨.literal _ (by simp), .literal _ (by simp)⟩

theorem result_printable : result.untype.Printable Example.xsd := by
  intro q hq
  have hlit : ∀ {l : Literal}, (Value.literal l).HasNumber q → l = .number q := by
    intro l h
    cases h
    rfl
  have : q = 1 := by
    change tree.HasNumber q at hq
    unfold tree at hq
    cases hq with
    | map hm hq =>
      simp only [List.mem_cons, Prod.mk.injEq, List.not_mem_nil, or_false] at hm
      rcases hm with ⟨rfl, rfl⟩ | ⟨rfl, rfl⟩
      · have := hlit hq
        injection this with this
        exact this.symm
      · cases hq with
        | list hm hq =>
          simp only [List.mem_cons, List.not_mem_nil, or_false] at hm
          rcases hm with rfl | rfl <;> exact nomatch hlit hq
  subst this
  exact ⟨"1", by decide +kernel⟩

theorem result_saved : save types 4 result (.iri "offer") DeExample.opts = .ok (quads, [.blank "input0", .blank "input"]) := by
  decide +kernel

theorem distinctKeys : reg.DistinctKeys := by
  intro ref l h
  exact reg_cases (P := fun l => ∀ p, l = .product p → (p.fields.map Prod.fst).Nodup)
    (by rintro p ⟨⟩; decide +kernel) (by simp) (by simp) (by simp) ref _ h l rfl

/-- The offer is read back by the derived types, with its two inputs and its list, from a dataset that says more. -/
example : ∃ N, ∀ m, N ≤ m → deserialize (reading dataset) m none (.iri "offer") [.blank "input0", .blank "input"]
    = .ok result :=
  C63_read_back types Example.xsd Example.xsd_laws SerExample.fromLiteral SerExample.parseInt seLaws seText reg_closed
    reg_wellTyped distinctKeys reg_sorted
    (fun ref l h => absurd rfl (reg_cases (P := fun l => ∀ p, l ≠ .unit p) (by simp) (by simp) (by simp) (by simp) ref _ h l))
    reg_graph ReadBackExamples.reg_noIntro ReadBackExamples.reg_binds (fun ref l hl => settled_fixed (reg_fixed ref l hl))
    DeExample.opts (fun _ => .refl _) 4 (.iri "offer") result result_type result_decided result_ids
    result_printable tree_noEmptyList KeptExamples.ends_fresh quads _ result_saved dataset (by decide +kernel)
    (by decide +kernel) (dsLaws _) (dsTotal _) ReproduceExample.le ReproduceExample.le_total
    (by
      intro ref l hl
      exact absurd hl (noSum _ _))
    (unambiguous_follows reg_wellTyped ReadBackExamples.reg_follows (by
      rintro l k ⟨⟩ ⟨⟩
      rfl))
    (absent_fixed fun ref _ l hl => reg_fixed ref l hl)

end DeriveReadExample

end Verif.Props
