import Verif.Combine
import Verif.Props.Stored
import Verif.Props.Cli
import Verif.CombineExample

/-!
# Properties C83 and C84: record layouts put together, documents about the same subject

The specifications are in `Verif/CombineSpec.lean`.
-/

set_option linter.unusedSectionVars false
set_option linter.unusedSimpArgs false

namespace Verif.Props

open Hydrate

section layouts

variable {R : Type _} [DecidableEq R]

/-- The match of the patterns of the parts, and of the whole. -/
theorem joins_match (c : HyCtx R) {ref : R} {l : ProductLayout R} {parts : List R} (hj : c.reg.Joins ref l parts) (g : Option R)
    (inputs : List R) :
    UniqueMatch c.ds (inputs.map some) (inGraph g l.dataset) (inputs.map some) ↔
    ∀ r ∈ parts, ∀ l', c.reg r = some (.product l') →
      UniqueMatch c.ds (inputs.map some) (inGraph g l'.dataset) (inputs.map some) := by
  simp only [match_known_iff, inGraph, List.mem_map, forall_exists_index, and_imp, forall_apply_eq_imp_iff₂]
  constructor
  · intro h r hr l' hl' q hq
    exact h q ((hj.dataset q).2 ⟨r, hr, l', hl', hq⟩)
  · intro h q hq
    obtain ⟨r, hr, l', hl', hq⟩ := (hj.dataset q).1 hq
    exact h r hr l' hl' q hq

/-- **C83** (success). A record layout that puts together the fields and the statements of others reads a record exactly when all of
them do. -/
theorem C83_join (c : HyCtx R) (hreg : c.reg.Closed) (hds : c.ds.Nodup) {ref : R} {l : ProductLayout R} {parts : List R}
    (hj : c.reg.Joins ref l parts) (n : Nat) (g : Option R) (inputs : List R) :
    (∃ w, hydrate c n g ref inputs = .ok w) ↔ ∀ r ∈ parts, ∃ w, hydrate c n g r inputs = .ok w := by
  cases n with
  | zero =>
    constructor
    · rintro ⟨w, h⟩
      simp [hydrate] at h
    · intro h
      obtain ⟨r, hr⟩ := List.exists_mem_of_ne_nil _ hj.nonempty
      obtain ⟨w, h⟩ := h r hr
      simp [hydrate] at h
  | succ n =>
    constructor
    · rintro ⟨w, h⟩ r hr
      obtain ⟨l', hl', hin, hint⟩ := hj.records r hr
      obtain ⟨σ, m, hlen, hu, -, hf, -⟩ := product_ok_iff c hds hj.layout (hreg _ _ hj.layout) n inputs w h
      rw [hj.intro, List.replicate_zero, List.append_nil] at hu
      have := match_known hu.1
      subst this
      refine product_ok_of c hds hl' (hreg _ _ hl') n inputs (hlen.trans hin.symm) _ ?_
        fun e he => hf e ((hj.fields e).2 ⟨r, hr, l', hl', he⟩)
      rw [hint, List.replicate_zero, List.append_nil]
      exact (joins_match c hj g inputs).1 hu r hr l' hl'
    · intro h
      have key : ∀ r ∈ parts, ∀ l', c.reg r = some (.product l') → inputs.length = l.input ∧
          UniqueMatch c.ds (inputs.map some) (inGraph g l'.dataset) (inputs.map some) ∧
          ∀ e ∈ l'.fields, (∃ v, FieldGives c (hydrate c n) g (inputs.map some) e.2 v) ∨ FieldAbsent c g (inputs.map some) e.2 := by
        intro r hr l' hl'
        obtain ⟨l'', hl'', hin, hint⟩ := hj.records r hr
        have e := hl'.symm.trans hl''
        cases e
        obtain ⟨w, h⟩ := h r hr
        obtain ⟨σ, m, hlen, hu, -, hf, -⟩ := product_ok_iff c hds hl' (hreg _ _ hl') n inputs w h
        rw [hint, List.replicate_zero, List.append_nil] at hu
        have := match_known hu.1
        subst this
        exact ⟨hlen.trans hin, hu, hf⟩
      have hlen : inputs.length = l.input := by
        obtain ⟨r, hr⟩ := List.exists_mem_of_ne_nil _ hj.nonempty
        obtain ⟨l', hl', -⟩ := hj.records r hr
        exact (key r hr l' hl').1
      refine product_ok_of c hds hj.layout (hreg _ _ hj.layout) n inputs hlen (inputs.map some) ?_ ?_
      · rw [hj.intro, List.replicate_zero, List.append_nil, joins_match c hj g inputs]
        exact fun r hr l' hl' => (key r hr l' hl').2.1
      · intro e he
        obtain ⟨r, hr, l', hl', he⟩ := (hj.fields e).1 he
        exact (key r hr l' hl').2.2 e he

/-- **C83** (content). The record that is read has the members of the records that the other layouts read, and no other. -/
theorem C83_members (c : HyCtx R) (hreg : c.reg.Closed) (hds : c.ds.Nodup) {ref : R} {l : ProductLayout R} {parts : List R}
    (hj : c.reg.Joins ref l parts) (n : Nat) (g : Option R) (inputs : List R) (w : TypedValue R)
    (h : hydrate c n g ref inputs = .ok w) :
    ∃ m, w = .map m ref ∧ ∀ k v, (k, v) ∈ m ↔ ∃ r ∈ parts, ∃ m', hydrate c n g r inputs = .ok (.map m' r) ∧ (k, v) ∈ m' := by
  have hparts := (C83_join c hreg hds hj n g inputs).1 ⟨w, h⟩
  cases n with
  | zero => simp [hydrate] at h
  | succ n =>
    obtain ⟨σ, m, hlen, hu, hw, -, hm⟩ := product_ok_iff c hds hj.layout (hreg _ _ hj.layout) n inputs w h
    rw [hj.intro, List.replicate_zero, List.append_nil] at hu
    have := match_known hu.1
    subst this
    have key : ∀ r ∈ parts, ∀ l', c.reg r = some (.product l') → ∃ m', hydrate c (n + 1) g r inputs = .ok (.map m' r) ∧
        ∀ k v, (k, v) ∈ m' ↔ ∃ f, (k, f) ∈ l'.fields ∧ FieldGives c (hydrate c n) g (inputs.map some) f v := by
      intro r hr l' hl'
      obtain ⟨l'', hl'', hin, hint⟩ := hj.records r hr
      have e := hl'.symm.trans hl''
      cases e
      obtain ⟨w', h'⟩ := hparts r hr
      obtain ⟨σ, m', -, hu', rfl, -, hm'⟩ := product_ok_iff c hds hl' (hreg _ _ hl') n inputs w' h'
      rw [hint, List.replicate_zero, List.append_nil] at hu'
      have := match_known hu'.1
      subst this
      exact ⟨m', h', hm'⟩
    refine ⟨m, hw, fun k v => ?_⟩
    rw [hm]
    constructor
    · rintro ⟨f, hf, hv⟩
      obtain ⟨r, hr, l', hl', hf⟩ := (hj.fields _).1 hf
      obtain ⟨m', h', hm'⟩ := key r hr l' hl'
      exact ⟨r, hr, m', h', (hm' k v).2 ⟨f, hf, hv⟩⟩
    · rintro ⟨r, hr, m', h', hkv⟩
      obtain ⟨l', hl', -⟩ := hj.records r hr
      obtain ⟨m'', h'', hm''⟩ := key r hr l' hl'
      rw [h', Out.ok.injEq, TypedValue.map.injEq] at h''
      obtain ⟨f, hf, hv⟩ := (hm'' k v).1 (h''.1 ▸ hkv)
      exact ⟨f, (hj.fields _).2 ⟨r, hr, l', hl', hf⟩, hv⟩

/-- **C83** (fewer fields). A record layout with the same patterns and some of the fields of another one reads these members of the
record that the other one reads. Both may introduce variables. -/
theorem C83_select (c : HyCtx R) (hreg : c.reg.Closed) (hds : c.ds.Nodup) {ref ref' : R} {l l' : ProductLayout R}
    (hl : c.reg ref = some (.product l)) (hl' : c.reg ref' = some (.product l')) (hin : l'.input = l.input) (hint : l'.intro = l.intro)
    (hd : l'.dataset = l.dataset) (hf : ∀ e ∈ l'.fields, e ∈ l.fields) (n : Nat) (g : Option R) (inputs : List R) (w : TypedValue R)
    (h : hydrate c n g ref inputs = .ok w) :
    ∃ m m', w = .map m ref ∧ hydrate c n g ref' inputs = .ok (.map m' ref') ∧ (∀ e ∈ m', e ∈ m) ∧
      ∀ k f v, (k, f) ∈ l'.fields → (k, v) ∈ m → (∀ f', (k, f') ∈ l.fields → f' = f) → (k, v) ∈ m' := by
  cases n with
  | zero => simp [hydrate] at h
  | succ n =>
    obtain ⟨σ, m, hlen, hu, hw, hfs, hm⟩ := product_ok_iff c hds hl (hreg _ _ hl) n inputs w h
    obtain ⟨w', h'⟩ := product_ok_of c hds hl' (hreg _ _ hl') n inputs (hlen.trans hin.symm) σ (by rw [hint, hd]; exact hu)
      fun e he => hfs e (hf e he)
    obtain ⟨σ', m', -, hu', rfl, -, hm'⟩ := product_ok_iff c hds hl' (hreg _ _ hl') n inputs w' h'
    rw [hint, hd] at hu'
    have := hu.2 _ hu'.1
    subst this
    refine ⟨m, m', hw, h', fun e he => ?_, fun k f v hkf hkv hone => ?_⟩
    · obtain ⟨k, v⟩ := e
      obtain ⟨f, hf', hv⟩ := (hm' k v).1 he
      exact (hm k v).2 ⟨f, hf _ hf', hv⟩
    · obtain ⟨f', hf', hv⟩ := (hm k v).1 hkv
      rw [hone f' hf'] at hv
      exact (hm' k v).2 ⟨f, hkf, hv⟩

end layouts

/-! ## Documents about the same subject -/

open Classical in
/-- **C84** (other properties). A tree that was written is read back from every dataset that contains what was written, even if the
dataset says more about the nodes of the tree, with properties that the layouts do not use.

Missing: the layouts and trees that C17 excludes. -/
theorem C84_stored_partial (d : Document) (hd : d.Written) (le : TypedValue Term → TypedValue Term → Bool) (all : List (Quad Term))
    (hall : all.Nodup) (hst : d.Among all) :
    ∃ w N, (∀ m, N ≤ m → hydrate (HyCtx.ofTerms d.ctx.reg d.ctx.xsd le all) m none d.layout d.subjects = .ok w) ∧
      SameTree d.ctx.reg d.layout d.tree w.untype := by
  let keep : Quad Term → Bool := fun q => decide (q ∈ d.dataset ∨ UsesProperty d.ctx.reg d.layout q.p)
  obtain ⟨w, N, hN, hs⟩ := C81_stored_partial d hd le (all.filter keep) (hall.filter _)
    ⟨fun q hq => List.mem_filter.2 ⟨hst.contains q hq, by simp [keep, hq]⟩, fun q hq hnot hg => by
      obtain ⟨hq, hk⟩ := List.mem_filter.1 hq
      rcases hst.other q hq hnot hg with h | h
      · exact h
      · simp [keep, hnot, h] at hk⟩
  refine ⟨w, N, fun m hm => (?_ : _ = _).trans (hN m hm), hs⟩
  let reg' : Registry Term := fun r => if d.ctx.reg.Reaches d.layout r then d.ctx.reg r else none
  have hreg' : ∀ r, d.ctx.reg.Reaches d.layout r → reg' r = d.ctx.reg r := fun r hr => by simp [reg', hr]
  have h1 := C59_hydrate (HyCtx.ofTerms d.ctx.reg d.ctx.xsd le all) reg' m none d.layout d.subjects hreg'
  have h2 := C59_hydrate (HyCtx.ofTerms d.ctx.reg d.ctx.xsd le (all.filter keep)) reg' m none d.layout d.subjects hreg'
  have h3 := C68_predicates { HyCtx.ofTerms d.ctx.reg d.ctx.xsd le all with reg := reg' } keep none d.subjects (by
    intro e he hk r l hl pat hpat
    have hr : d.ctx.reg.Reaches d.layout r := by
      by_contra hr
      simp [reg', hr] at hl
    have hl : d.ctx.reg r = some l := (hreg' r hr).symm.trans hl
    have hr := reaches_of_registry hr
    obtain ⟨l2, hl2, ht⟩ := hd.layouts r hr
    have e1 := hl.symm.trans hl2
    cases e1
    obtain ⟨⟨t, ht⟩, -⟩ := RoundTrip.tree_patterns ht pat hpat
    refine ⟨t, ht, ?_⟩
    rintro rfl
    have : UsesProperty d.ctx.reg d.layout e.p := ⟨r, l, hr, hl, pat, hpat, ht⟩
    simp [keep, this] at hk) m d.layout
  exact h1.symm.trans (h3.symm.trans h2)

/-- What is written uses the properties of the layouts. -/
theorem writes_properties (d : Document) (hd : d.Written) (q : Quad Term) (hq : q ∈ d.dataset) :
    UsesProperty d.ctx.reg d.layout q.p := by
  obtain ⟨c, o, ref, n, v, D, subjects⟩ := d
  obtain ⟨-, -, -, hord, htree, -, -, -, hrun⟩ := hd
  dsimp only at *
  obtain ⟨l, hl, hlt⟩ := htree ref (.refl ref)
  unfold Dehydrate.dehydrate at hrun
  rw [hl] at hrun
  simp only [RoundTrip.tree_inputCount hlt, Option.getD_some] at hrun
  rcases hd : Dehydrate.dehydrateWith c n v none ref ((List.range 1).map .input) ⟨[], [], 0⟩ with ⟨a | e | _ | _, s⟩ <;>
    rw [hd] at hrun <;> simp only [reduceCtorEq] at hrun
  by_cases hamb : Dehydrate.ambiguous s.terms = true
  · rw [if_pos hamb] at hrun; simp at hrun
  rw [if_neg hamb] at hrun
  rw [Dehydrate.ambiguous_iff] at hamb
  rcases h1 : Dehydrate.mapQuads o (o.order s.out) (Dehydrate.initialMap s.terms, 0) with ⟨qs, st⟩
  rcases h2 : Dehydrate.mapInputs o (List.range 1) st with ⟨values, st'⟩
  rw [h1] at hrun
  simp only [h2, Out.ok.injEq, Prod.mk.injEq] at hrun
  obtain ⟨rfl, rfl⟩ := hrun
  obtain ⟨f, hf, hqs, -⟩ := Dehydrate.naming_spec o s hamb _ _ h1 h2
  rw [Dehydrate.toSet, List.mem_dedup, hqs, List.mem_map] at hq
  obtain ⟨q, hq, rfl⟩ := hq
  have hq := (hord s.out).mem_iff.1 hq
  have hfrom := Dehydrate.from_reached c (Reaches c.reg ref) (fun ref' l f h1 h2 h3 => .step h1 h2 h3) n v none ref [.input 0] (.refl ref)
    ⟨[], [], 0⟩
  have hd' : Dehydrate.dehydrateWith c n v none ref [.input 0] ⟨[], [], 0⟩ = (.ok a, s) := hd
  rw [hd'] at hfrom
  rcases hfrom q hq with h | ⟨p, ρ, ⟨ref', l', hr', hl', hp⟩, hi⟩
  · simp at h
  · obtain ⟨l2, hl2, ht2⟩ := htree ref' hr'
    have e := hl'.symm.trans hl2
    cases e
    obtain ⟨⟨t, e1⟩, -⟩ := RoundTrip.tree_patterns ht2 p hp
    obtain ⟨-, i1, -⟩ := hi
    rw [e1] at i1
    refine ⟨ref', l', hr', hl', p, hp, ?_⟩
    rw [e1, Quad.map, show q.p = .term t from i1, hf.term]

/-- **C84** (different properties). Documents whose layouts have no property in common do not disturb each other, even if they
describe the same nodes. -/
theorem C84_different_properties (d e : Document) (he : e.Written)
    (h : ∀ p, UsesProperty e.ctx.reg e.layout p → ¬ UsesProperty d.ctx.reg d.layout p) : d.Beside e :=
  fun q hq => .inr (h q.p (writes_properties e he q hq))

/-- **C84** (documents). Trees that describe the same subject with record layouts of different properties, each one written on its
own, are put together. A record layout that has the fields of all of them reads from the whole a record with the members of all of
them, and nothing else.

Missing: the layouts and trees that C17 excludes. -/
theorem C84_documents_partial (c : DeCtx) (subjects : List Term) (docs : List Document)
    (hd : ∀ d ∈ docs, d.Written ∧ d.ctx = c ∧ d.subjects = subjects) (hbeside : ∀ d ∈ docs, ∀ e ∈ docs, d = e ∨ d.Beside e)
    (all : List (Quad Term)) (hall : all.Nodup) (hcontains : ∀ d ∈ docs, ∀ q ∈ d.dataset, q ∈ all)
    (honly : ∀ q ∈ all, q.g = none → ∃ d ∈ docs, q ∈ d.dataset) (hreg : c.reg.Closed) (ref : Term) (l : ProductLayout Term)
    (hj : c.reg.Joins ref l (docs.map Document.layout)) (le : TypedValue Term → TypedValue Term → Bool) :
    ∃ m N, (∀ k, N ≤ k → hydrate (HyCtx.ofTerms c.reg c.xsd le all) k none ref subjects = .ok (.map m ref)) ∧
      ∃ read : Document → List (Value × TypedValue Term),
        (∀ d ∈ docs, SameTree c.reg d.layout d.tree (.map (TypedValue.untypeMap (read d)))) ∧
        ∀ key v, (key, v) ∈ m ↔ ∃ d ∈ docs, (key, v) ∈ read d := by
  -- each document is read back from the whole
  have hback : ∀ d ∈ docs, ∃ w N, (∀ k, N ≤ k → hydrate (HyCtx.ofTerms c.reg c.xsd le all) k none d.layout subjects = .ok w) ∧
      SameTree c.reg d.layout d.tree w.untype := by
    intro d hdd
    obtain ⟨hw, hc, hs⟩ := hd d hdd
    have := C84_stored_partial d hw le all hall ⟨hcontains d hdd, fun q hq hnot hg => by
      obtain ⟨e, he, hqe⟩ := honly q hq hg
      rcases hbeside d hdd e he with rfl | h
      · exact absurd hqe hnot
      · have hwe := (hd e he).1
        have hst := (RoundTrip.round_trip_stored e.ctx (fun _ _ => true) e.options hwe.xsd hwe.sorted hwe.blank hwe.order e.layout
          hwe.layouts e.depth e.tree hwe.tree hwe.recoverable hwe.distinct e.dataset e.subjects hwe.written).1 q hqe
        rcases h q hqe with h | h
        · refine .inl ⟨h, fun lit e1 => ?_⟩
          rw [e1] at hst
          rcases hst with ⟨i, -, e2⟩ | ⟨h2, -⟩
          · simp at e2
          · rcases h2 with e2 | ⟨i, e2⟩
            · obtain ⟨b, hb⟩ := hwe.blank.input
              rw [hb] at e2; simp at e2
            · obtain ⟨b, hb⟩ := hwe.blank.generator i
              rw [hb] at e2; simp at e2
        · exact .inr h⟩
    rw [hc, hs] at this
    exact this
  -- all of them with the same bound
  obtain ⟨K, hK⟩ : ∃ K, ∀ d ∈ docs, ∃ w, (∀ k, K ≤ k → hydrate (HyCtx.ofTerms c.reg c.xsd le all) k none d.layout subjects = .ok w) ∧
      SameTree c.reg d.layout d.tree w.untype := by
    clear hd hbeside hcontains honly hj
    induction docs with
    | nil => exact ⟨0, by simp⟩
    | cons d docs ih =>
      obtain ⟨K, hK⟩ := ih fun e he => hback e (List.mem_cons_of_mem _ he)
      obtain ⟨w, N, hN, hs⟩ := hback d (by simp)
      refine ⟨max N K, fun e he => ?_⟩
      rcases List.mem_cons.1 he with rfl | he
      · exact ⟨w, fun k hk => hN k (by omega), hs⟩
      · obtain ⟨w, hw, hs⟩ := hK e he
        exact ⟨w, fun k hk => hw k (by omega), hs⟩
  obtain ⟨w, hw⟩ := (C83_join (HyCtx.ofTerms c.reg c.xsd le all) hreg hall hj K none subjects).2 (by
    intro r hr
    obtain ⟨d, hd, rfl⟩ := List.mem_map.1 hr
    obtain ⟨w, hw, -⟩ := hK d hd
    exact ⟨w, hw K (Nat.le_refl _)⟩)
  obtain ⟨m, rfl, hm⟩ := C83_members (HyCtx.ofTerms c.reg c.xsd le all) hreg hall hj K none subjects w hw
  refine ⟨m, K, fun k hk => ?_, fun d => match hydrate (HyCtx.ofTerms c.reg c.xsd le all) K none d.layout subjects with
    | .ok (.map m' _) => m'
    | _ => [], fun d hdd => ?_, fun key v => ?_⟩
  · exact ((hydrate_mono _ K k hk none ref subjects).eq_of_ne (by rw [hw]; simp)).trans hw
  · obtain ⟨w, hw', hs⟩ := hK d hdd
    have hw' := hw' K (Nat.le_refl _)
    obtain ⟨l', hl', -⟩ := hj.records d.layout (List.mem_map.2 ⟨d, hdd, rfl⟩)
    cases K with
    | zero => simp [hydrate] at hw'
    | succ K =>
      obtain ⟨-, m', -, -, rfl, -⟩ := product_ok_iff (HyCtx.ofTerms c.reg c.xsd le all) hall hl' (hreg _ _ hl') K subjects w hw'
      beta_reduce
      rw [hw']
      exact hs
  · rw [hm]
    constructor
    · rintro ⟨r, hr, m', h1, h2⟩
      obtain ⟨d, hdd, rfl⟩ := List.mem_map.1 hr
      exact ⟨d, hdd, by beta_reduce; rw [h1]; exact h2⟩
    · rintro ⟨d, hdd, h1⟩
      refine ⟨d.layout, List.mem_map.2 ⟨d, hdd, rfl⟩, ?_⟩
      beta_reduce at h1
      split at h1
      · rename_i m' r hr
        have : r = d.layout := by
          obtain ⟨l', hl', -⟩ := hj.records d.layout (List.mem_map.2 ⟨d, hdd, rfl⟩)
          cases K with
          | zero => simp [hydrate] at hr
          | succ K =>
            obtain ⟨-, m'', -, -, e, -⟩ := product_ok_iff (HyCtx.ofTerms c.reg c.xsd le all) hall hl' (hreg _ _ hl') K subjects _ hr
            simp only [TypedValue.map.injEq] at e
            exact e.2
        rw [this] at hr
        exact ⟨m', hr, h1⟩
      · simp at h1

/-! ## The example of the repository -/

open CombineExample

theorem Witness.egg_bird : ∀ d ∈ [eggDoc, birdDoc], ∀ e ∈ [eggDoc, birdDoc], d = e ∨ d.Beside e := by
  have h : ∀ p, UsesProperty reg (.iri "nestedResult") p → ¬ UsesProperty reg (.iri "unnestedResult") p := by
    intro p h1 h2
    rcases egg_properties p h1 with rfl | rfl <;> have := bird_properties _ h2 <;> simp at this
  simp only [List.mem_cons, List.not_mem_nil, or_false, forall_eq_or_imp, forall_eq, true_or, true_and, and_true]
  exact ⟨.inr (C84_different_properties _ _ bird_written fun p h1 h2 => h p h2 h1),
    .inr (C84_different_properties _ _ egg_written h)⟩

theorem Witness.egg_bird_written : ∀ d ∈ [eggDoc, birdDoc], d.Written ∧ d.ctx = ctx ∧ d.subjects = [.blank "input0"] := by
  simp only [List.mem_cons, List.not_mem_nil, or_false, forall_eq_or_imp, forall_eq]
  exact ⟨⟨egg_written, rfl, rfl⟩, ⟨bird_written, rfl, rfl⟩⟩

example := C84_documents_partial ctx [.blank "input0"] [eggDoc, birdDoc] Witness.egg_bird_written Witness.egg_bird
  (eggDoc.dataset ++ birdDoc.dataset) (by decide +kernel)
  (by simp only [List.mem_cons, List.not_mem_nil, or_false, forall_eq_or_imp, forall_eq]
      exact ⟨fun q hq => List.mem_append_left _ hq, fun q hq => List.mem_append_right _ hq⟩)
  (fun q hq _ => by
    rcases List.mem_append.1 hq with h | h
    · exact ⟨eggDoc, by simp, h⟩
    · exact ⟨birdDoc, by simp, h⟩)
  reg_closed (.iri "both") _ both_joins (fun _ _ => true)

/-- The dataset of the example, with both documents. -/
def Witness.eggBird : HyCtx Term := HyCtx.ofTerms reg Example.xsd (fun _ _ => true) (eggDoc.dataset ++ birdDoc.dataset)

example := C83_join Witness.eggBird reg_closed (by decide +kernel) both_joins 4 none [.blank "input0"]

-- what the whole reads
example : (hydrate Witness.eggBird 4 none (.iri "both") [.blank "input0"]).map TypedValue.untype =
    .ok (.map [(.text "nested", .map [(.text "egg", .literal (.number 1))]),
      (.text "unnested", .map [(.text "bird", .literal (.boolean true))])]) := by decide +kernel

-- what the final layout of the example reads: a property of a part of the second document, next to a part of the first one
example : (hydrate Witness.eggBird 4 none (.iri "output") [.blank "input0"]).map TypedValue.untype =
    .ok (.map [(.text "bird", .literal (.boolean true)), (.text "nested", .map [(.text "egg", .literal (.number 1))])]) := by
  decide +kernel

open Classical in
example := C83_select Witness.eggBird reg_closed (by decide +kernel) (ref := .iri "both") (ref' := .iri "nestedResult") rfl rfl rfl rfl
  rfl (by simp [record]) 4 none [.blank "input0"]
  (.map [(.text "nested", .map [(.text "egg", .literal (.number 1 (.iri "number")))] (.iri "nested")),
    (.text "unnested", .map [(.text "bird", .literal (.boolean true (.iri "flag")))] (.iri "unnested"))] (.iri "both"))
  (by decide +kernel)

end Verif.Props
