import Verif.Kept
import Verif.KeptExample
import Verif.Props.Dehydrate
import Verif.Props.Hydrate

/-!
# Property C85: what is read back has everything that was written

The specification is in `Verif/KeptSpec.lean`.
-/

set_option linter.unusedSectionVars false
set_option linter.unusedSimpArgs false

namespace Verif.Props

open Hydrate Dehydrate Keeping

/-- The terms that end lists are IRIs used for nothing else: they are not texts of the tree, nor names of resources. -/
structure EndsFresh (reg : Registry Term) (v : Value) (o : DeOptions) : Prop where
  apart : reg.EndsApart
  iri : ∀ t, reg.EndsLists t → ∃ i, t = .iri i ∧ ¬ v.HasText i
  generator : ∀ t, reg.EndsLists t → ∀ k, o.generator k ≠ t
  input : ∀ t, reg.EndsLists t → ∀ k, o.inputTerm k ≠ t

open Classical in
/-- The terms that name resources, the quads written and the subjects returned. -/
theorem written_world (c : DeCtx) (n : Nat) (v : Value) (ref : Term) (o : DeOptions) (ho : ∀ l, (o.order l).Perm l)
    (quads : List (Quad Term)) (values : List Term) (h : dehydrate c n v ref o = .ok (quads, values))
    (ds : List (Quad Term)) (hsub : ∀ q ∈ quads, q ∈ ds) :
    ∃ count s f, dehydrateWith c n v none ref ((List.range count).map .input) ⟨[], [], 0⟩ = (.ok (), s) ∧ World c s f ds ∧
      values = ((List.range count).map IRes.input).map f ∧
      (EndsFresh c.reg v o → ∀ t, c.reg.EndsLists t → ∀ r, f r = t → r = .term t) := by
  obtain ⟨l, count, s, f, hl, -, hrun, -, hf, hq, -, rfl⟩ := C14_one_term_per_resource c n v ref o ho quads values h
  let f' : IRes → Term := fun r =>
    if Occurs s.out count r ∨ (∃ t, r = .term t) ∨ ∃ t, (r, t) ∈ s.terms then f r else .blank ""
  have hocc : ∀ r, Occurs s.out count r → f' r = f r := fun r hr => if_pos (.inl hr)
  refine ⟨count, s, f', hrun, ⟨fun t => ?_, fun r t ht => ?_, fun q hq' => ?_⟩, ?_, ?_⟩
  · have : f' (.term t) = f (.term t) := if_pos (.inr (.inl ⟨t, rfl⟩))
    rw [this, hf.term]
  · have : f' r = f r := if_pos (.inr (.inr ⟨t, ht⟩))
    rw [this, hf.assigned r t ht]
  · have : q.map f' = q.map f := by
      have h1 := hocc q.s (.inl ⟨q, hq', .inl rfl⟩)
      have h2 := hocc q.p (.inl ⟨q, hq', .inr (.inl rfl)⟩)
      have h3 := hocc q.o (.inl ⟨q, hq', .inr (.inr (.inl rfl))⟩)
      unfold Quad.map
      rw [h1, h2, h3]
      cases hg : q.g with
      | none => rfl
      | some g => simp only [Option.map_some]; rw [hocc g (.inl ⟨q, hq', .inr (.inr (.inr hg))⟩)]
    rw [this]
    exact hsub _ ((hq _).2 ⟨q, hq', rfl⟩)
  · rw [List.map_map]
    refine List.map_congr_left fun i hi => ?_
    exact (hocc (.input i) (.inr ⟨i, List.mem_range.1 hi, rfl⟩)).symm
  · intro hw t ht r hr
    obtain ⟨i, rfl, hi⟩ := hw.iri t ht
    by_cases hk : Occurs s.out count r ∨ (∃ t, r = .term t) ∨ ∃ t, (r, t) ∈ s.terms
    · have hr' : f r = .iri i := by rw [← hr]; exact (if_pos hk).symm
      by_cases ha : ∃ u, (r, u) ∈ s.terms
      · obtain ⟨u, hu⟩ := ha
        have hadd := adds_dehydrateWith c (T := fun t => ∀ i, t = .iri i → v.HasText i) (fun _ _ h => nomatch h) n v
          (fun i hi j hj => by injection hj with hj; rw [← hj]; exact hi) none ref ((List.range count).map .input) ⟨[], [], 0⟩
        rw [hrun] at hadd
        rcases hadd _ hu with h | h
        · exact nomatch h
        · rw [hf.assigned r u hu] at hr'
          exact absurd (h i hr') hi
      · cases r with
        | term t => rw [hf.term] at hr'; rw [hr']
        | input k =>
          have hu : Occurs s.out count (.input k) := by
            rcases hk with hk | ⟨_, hk⟩ | hk
            · exact hk
            · exact nomatch hk
            · exact absurd hk ha
          rw [hf.input k hu fun t ht => ha ⟨t, ht⟩] at hr'
          exact absurd hr' (hw.input _ ht k)
        | anon k =>
          have hu : Occurs s.out count (.anon k) := by
            rcases hk with hk | ⟨_, hk⟩ | hk
            · exact hk
            · exact nomatch hk
            · exact absurd hk ha
          obtain ⟨pos, hp, -⟩ := hf.generated
          rw [hp k hu fun t ht => ha ⟨t, ht⟩] at hr'
          exact absurd hr' (hw.generator _ ht _)
    · have : f' r = .blank "" := if_neg hk
      rw [this] at hr
      exact nomatch hr

/-- **C85.** A tree is written with a layout; other quads may be added to the dataset, or be there before; if the dataset
is read with the same layout from the subjects returned, and a tree is read, then this tree has everything that was
written. This holds for all layouts, with any patterns, any number of inputs and introduced variables, as long as no
value format selects a named graph. Lists are not cut short if `EndsFresh` holds, and the variants read are the variants
written if the patterns of the variants tell them apart. -/
theorem C85_kept (c : DeCtx) (laws : XsdLaws c.xsd) (hcl : c.reg.Closed) (hkeys : c.reg.DistinctKeys) (hwt : c.reg.WellTyped)
    (hgraph : ∀ ref l, c.reg ref = some l → ∀ f ∈ l.formats, ∀ p, f.graph ≠ some (some p))
    (n : Nat) (v : Value) (ref : Term) (o : DeOptions) (ho : ∀ l, (o.order l).Perm l) (quads : List (Quad Term))
    (values : List Term) (h : dehydrate c n v ref o = .ok (quads, values))
    (le : TypedValue Term → TypedValue Term → Bool) (hle : TotalOrder le)
    (ds : List (Quad Term)) (hds : ds.Nodup) (hsub : ∀ q ∈ quads, q ∈ ds)
    (whole apart : Prop) (hwhole : whole → EndsFresh c.reg v o) (hapart : apart → (HyCtx.ofTerms c.reg c.xsd le ds).ToldApart)
    (m : Nat) (w : TypedValue Term) (hread : hydrate (HyCtx.ofTerms c.reg c.xsd le ds) m none ref values = .ok w) :
    Kept whole apart c.reg c.isIri ref v w := by
  obtain ⟨count, s, f, hrun, W, rfl, hfar⟩ := written_world c n v ref o ho quads values h ds hsub
  have hm := ((C04_hydrate_meaning (HyCtx.ofTerms c.reg c.xsd le ds) hcl hds hle m none ref _).1 w hread m (Nat.le_refl _) w).2 rfl
  refine keeping (whole := whole) (apart := apart) c le laws W ⟨hcl, hgraph, fun hw => (hwhole hw).apart⟩ hkeys hwt
    (fun hw => hfar (hwhole hw)) hapart n m none ref _ v ⟨[], [], 0⟩ s w hrun (RoundTrip.extends_rel.refl s) ?_ hm
  intro _ r hr t _ he
  obtain ⟨i, _, rfl⟩ := List.mem_map.1 hr
  exact nomatch he

/-- **C85** (exactly). When the layouts are such that what is written determines what is read (no set, no `always`
layout, no optional field), lists are neither empty nor cut short, and variants are told apart, the tree read is the tree
written. -/
theorem C85_exact (c : DeCtx) (laws : XsdLaws c.xsd) (hcl : c.reg.Closed) (hso : c.reg.Sorted) (hwt : c.reg.WellTyped)
    (hgraph : ∀ ref l, c.reg ref = some l → ∀ f ∈ l.formats, ∀ p, f.graph ≠ some (some p))
    (n : Nat) (v : Value) (ref : Term) (o : DeOptions) (ho : ∀ l, (o.order l).Perm l) (quads : List (Quad Term))
    (values : List Term) (h : dehydrate c n v ref o = .ok (quads, values))
    (le : TypedValue Term → TypedValue Term → Bool) (hle : TotalOrder le)
    (ds : List (Quad Term)) (hds : ds.Nodup) (hsub : ∀ q ∈ quads, q ∈ ds)
    (hfix : ∀ ref', Reaches c.reg ref ref' → ∀ l, c.reg ref' = some l → l.Fixed) (hv : v.Sorted) (hne : v.NoEmptyList)
    (hends : EndsFresh c.reg v o) (hapart : (HyCtx.ofTerms c.reg c.xsd le ds).ToldApart)
    (m : Nat) (w : TypedValue Term) (hread : hydrate (HyCtx.ofTerms c.reg c.xsd le ds) m none ref values = .ok w) :
    w.untype = v :=
  Keeping.exact hso (C85_kept c laws hcl (fun r l hl => RoundTrip.SortedKeys.nodup (hso r l hl)) hwt hgraph n v ref o ho quads
    values h le hle ds hds hsub True True (fun _ => hends) (fun _ => hapart) m w hread) hfix hv hne

namespace KeptExamples

open KeptExample

theorem ends_fresh : EndsFresh ctx.reg tree DeExample.opts where
  apart := reg_ends
  iri t ht := by
    rw [ends ht]
    refine ⟨"nil", rfl, fun h => ?_⟩
    rcases tree_text h with h | h <;> simp at h
  generator t ht k := by rw [ends ht]; simp [DeExample.opts]
  input t ht k := by rw [ends ht]; simp [DeExample.opts]

/-- The offer, with two inputs and introduced variables, read from a dataset that says more. -/
example : Kept True False ctx.reg ctx.isIri (.iri "offer") tree result :=
  C85_kept ctx Example.xsd_laws reg_closed (fun r l hl => RoundTrip.SortedKeys.nodup (reg_sorted r l hl)) reg_wellTyped reg_graph
    4 tree (.iri "offer") DeExample.opts (fun _ => .refl _) quads _ write ReproduceExample.le ReproduceExample.le_total dataset
    (by decide +kernel) (by decide +kernel) True False (fun _ => ends_fresh) (fun h => h.elim) 4 result read

/-- It is the tree written. -/
example : result.untype = tree :=
  C85_exact ctx Example.xsd_laws reg_closed reg_sorted reg_wellTyped reg_graph
    4 tree (.iri "offer") DeExample.opts (fun _ => .refl _) quads _ write ReproduceExample.le ReproduceExample.le_total dataset
    (by decide +kernel) (by decide +kernel) (fun ref _ l hl => reg_fixed ref l hl) tree_sorted tree_noEmptyList ends_fresh
    (by
      intro ref l hl
      exact absurd rfl (reg_cases (P := fun l => ∀ p, l ≠ .sum p) (by simp) (by simp) (by simp) (by simp) ref _ hl l))
    4 result read

end KeptExamples

namespace Witness

open KeptExample

/-- The subject is named like the end of lists. -/
def nilOptions : DeOptions := { DeExample.opts with inputTerm := fun _ => .iri "nil" }

/-- `EndsFresh` is needed: a list whose subject is named like the end of lists is written without error, and read as the empty
list. -/
theorem C85_cut :
    dehydrate ctx 3 (.list [.text "a"]) (.iri "list") nilOptions =
      .ok ([⟨.iri "nil", .iri "first", .literal ⟨"a", .any "xsd:string"⟩, none⟩, ⟨.iri "nil", .iri "rest", .iri "nil", none⟩],
        [.iri "nil"]) ∧
    hydrate (HyCtx.ofTerms reg Example.xsd ReproduceExample.le
        [⟨.iri "nil", .iri "first", .literal ⟨"a", .any "xsd:string"⟩, none⟩, ⟨.iri "nil", .iri "rest", .iri "nil", none⟩])
      3 none (.iri "list") [.iri "nil"] = .ok (.list [] (.iri "list")) :=
  ⟨by decide +kernel, by decide +kernel⟩

/-- Nothing is written for an empty list, so anything may be read in its place. -/
theorem C85_empty :
    dehydrate ctx 3 (.list []) (.iri "list") DeExample.opts = .ok ([], [.blank "input0"]) ∧
    hydrate (HyCtx.ofTerms reg Example.xsd ReproduceExample.le
        [⟨.blank "input0", .iri "first", .literal ⟨"a", .any "xsd:string"⟩, none⟩,
          ⟨.blank "input0", .iri "rest", .iri "nil", none⟩])
      3 none (.iri "list") [.blank "input0"] = .ok (.list [.literal (.textString "a" (.iri "text"))] (.iri "list")) :=
  ⟨by decide +kernel, by decide +kernel⟩

end Witness

end Verif.Props
