import Verif.ReproduceNames
import Verif.ReproduceExample
import Verif.Props.Hydrate
import Verif.Props.Dehydrate
import Verif.Props.Rename

/-! # C79: writing back what was read -/

set_option linter.unusedSectionVars false
set_option linter.unusedSimpArgs false

namespace Verif.Props

open Verif.Dehydrate Verif.Reproduce

/-- What a run from a tree that was read does. -/
theorem run_back (c : DeCtx) (le : TypedValue Term → TypedValue Term → Bool) (hle : TotalOrder le) (hcl : c.reg.Closed)
    (hkeys : c.reg.DistinctKeys) (hrev : c.reg.Reversible) (ds : List (Quad Term)) (hds : ds.Nodup) (ref : Term)
    (inputs : List Term) (m : Nat) (v : TypedValue Term)
    (hread : Hydrate.hydrate (HyCtx.ofTerms c.reg c.xsd le ds) m none ref inputs = .ok v) (hdec : WellDecided c.reg v) (n : Nat)
    (s : DeState) (hrun : dehydrateWith c n v.untype none ref ((List.range inputs.length).map .input) ⟨[], [], 0⟩ = (.ok (), s)) :
    ∃ h : IRes → Term, (∀ t, h (.term t) = t) ∧ ((List.range inputs.length).map .input).map h = inputs ∧
      (∀ q ∈ s.out, q.map h ∈ ds) ∧
      ∀ e ∈ s.terms, (HyCtx.ofTerms c.reg c.xsd le ds).Uses none inputs (h e.1) ∧ WrittenAs c.xsd (h e.1) e.2 := by
  have hmean : Meaning (HyCtx.ofTerms c.reg c.xsd le ds) m none ref inputs v :=
    ((C04_hydrate_meaning (HyCtx.ofTerms c.reg c.xsd le ds) hcl hds hle m none ref inputs).1 v hread m (Nat.le_refl _) v).2 rfl
  have hP : Domain ((HyCtx.ofTerms c.reg c.xsd le ds).Uses none inputs) c.reg ds :=
    ⟨fun q hq t ht => .inl ⟨q, hq, ht⟩, fun t ht => .inr (.inl ht)⟩
  have hold : ∀ r ∈ (List.range inputs.length).map IRes.input, Old 0 r := by
    intro r hr
    obtain ⟨i, _, rfl⟩ := List.mem_map.1 hr
    exact fun _ h => nomatch h
  obtain ⟨h, st, _⟩ := back c le hcl hkeys hrev hP n m none ref inputs _ v ⟨[], [], 0⟩ s (start inputs) hmean hdec hrun
    (fun _ => rfl) (map_start inputs) hold (fun t ht => .inr (.inr (.inr ht)))
  refine ⟨h, fun t => st.agree _ (old_term _ t), ?_, fun q hq => ?_, fun e he => ?_⟩
  · rw [← map_start inputs]
    simp only [List.length_map, List.length_range]
    rw [map_start inputs]
    conv => rhs; rw [← map_start inputs]
    exact List.map_congr_left fun r hr => st.agree r (hold r hr)
  · rcases st.quads q hq with hq | hq
    · exact nomatch hq
    · exact hq.2
  · rcases st.terms e he with he | he
    · exact nomatch he
    · exact he.2

/-- The number of inputs used by `dehydrate` is the number of inputs that were read. -/
theorem run_count (c : DeCtx) (le : TypedValue Term → TypedValue Term → Bool) (hle : TotalOrder le) (hcl : c.reg.Closed)
    (ds : List (Quad Term)) (hds : ds.Nodup) (ref : Term) (inputs : List Term) (m : Nat) (v : TypedValue Term)
    (hread : Hydrate.hydrate (HyCtx.ofTerms c.reg c.xsd le ds) m none ref inputs = .ok v) (o : DeOptions)
    (hcount : o.inputCount = some inputs.length) (l : Layout Term) (hl : c.reg ref = some l) :
    l.inputCount.getD (o.inputCount.getD 1) = inputs.length := by
  have hmean : Meaning (HyCtx.ofTerms c.reg c.xsd le ds) m none ref inputs v :=
    ((C04_hydrate_meaning (HyCtx.ofTerms c.reg c.xsd le ds) hcl hds hle m none ref inputs).1 v hread m (Nat.le_refl _) v).2 rfl
  cases m with
  | zero => exact absurd hmean id
  | succ m =>
    obtain ⟨l', hl', hk, _⟩ := hmean
    change c.reg ref = some l' at hl'
    rw [hl] at hl'
    obtain rfl := Option.some.inj hl'
    rw [hcount]
    cases hic : l.inputCount with
    | none => rfl
    | some k => exact (hk k hic).symm

/-- Both theorems below, for a relation `W` between the terms read and the terms written. -/
theorem written_was_read (c : DeCtx) (le : TypedValue Term → TypedValue Term → Bool) (hle : TotalOrder le)
    (hcl : c.reg.Closed) (hkeys : c.reg.DistinctKeys) (hrev : c.reg.Reversible) (ds : List (Quad Term)) (hds : ds.Nodup)
    (ref : Term) (inputs : List Term) (m : Nat) (v : TypedValue Term)
    (hread : Hydrate.hydrate (HyCtx.ofTerms c.reg c.xsd le ds) m none ref inputs = .ok v) (hdec : WellDecided c.reg v)
    (o : DeOptions) (ho : ∀ l, (o.order l).Perm l) (hnames : DistinctNames o) (hcount : o.inputCount = some inputs.length)
    (n : Nat) (quads : List (Quad Term)) (values : List Term)
    (hwrite : dehydrate c n v.untype ref o = .ok (quads, values)) {W : Term → Term → Prop} (hrefl : ∀ t, W t t)
    (hW : ∀ u t, (HyCtx.ofTerms c.reg c.xsd le ds).Uses none inputs u → WrittenAs c.xsd u t → W u t) :
    ∃ b : Term → Term,
      List.Forall₂ (fun t u => W u t ∨ u = b t ∧ ∃ i, t = o.generator i ∨ t = o.inputTerm i) values inputs ∧
      ∀ q ∈ quads, ∃ q' ∈ ds, q.Rel (fun t u => W u t ∨ u = b t ∧ ∃ i, t = o.generator i ∨ t = o.inputTerm i) q' := by
  obtain ⟨l, count, s, f, hl, hc, hrun, _, hn, hq, _, hv⟩ := C14_one_term_per_resource c n v.untype ref o ho quads values hwrite
  obtain rfl : count = inputs.length := by
    rw [hc]
    exact run_count c le hle hcl ds hds ref inputs m v hread o hcount l hl
  obtain ⟨h, hterm, hins, hquads, hterms⟩ := run_back c le hle hcl hkeys hrev ds hds ref inputs m v hread hdec n s hrun
  obtain ⟨b, hb⟩ := origin_of hrefl hn hnames h hterm fun e he => hW _ _ (hterms e he).1 (hterms e he).2
  refine ⟨b, ?_, fun q hq' => ?_⟩
  · have hall : List.Forall₂ (fun t u => W u t ∨ u = b t ∧ ∃ i, t = o.generator i ∨ t = o.inputTerm i)
        ((List.range inputs.length).map fun i => f (.input i)) (((List.range inputs.length).map .input).map h) := by
      rw [List.map_map, List.forall₂_map_left_iff, List.forall₂_map_right_iff]
      exact List.forall₂_same.2 fun i hi => hb _ (.inr ⟨i, List.mem_range.1 hi, rfl⟩)
    rw [hins] at hall
    rw [hv]
    exact hall
  · obtain ⟨q0, hq0, rfl⟩ := (hq q).1 hq'
    exact ⟨_, hquads q0 hq0, rel_map (hb _ (.inl ⟨q0, hq0, .inl rfl⟩)) (hb _ (.inl ⟨q0, hq0, .inr (.inl rfl)⟩))
      (hb _ (.inl ⟨q0, hq0, .inr (.inr (.inl rfl))⟩)) fun g hg => hb _ (.inl ⟨q0, hq0, .inr (.inr (.inr hg))⟩)⟩

/-- **C79** (as far as the code goes). A tree is read from a dataset, then written with the same layouts. Then every quad
that is written is a quad that was read: its terms are those of that quad, literals of a boolean or decimal type being
written in their canonical form, and generated names standing, each, for one term of the dataset. The inputs written stand
for the inputs read. What is missing: sums whose other variants write something before they fail, layouts that do not
bind the variables they introduce and parts described in a graph of their own are excluded, see
`C79_failed_variant_adds`, `C79_unbound_introduction_adds` and `C79_graph_adds`. -/
theorem C79_written_was_read_partial (c : DeCtx) (le : TypedValue Term → TypedValue Term → Bool) (hle : TotalOrder le)
    (hcl : c.reg.Closed) (hkeys : c.reg.DistinctKeys) (hrev : c.reg.Reversible) (ds : List (Quad Term)) (hds : ds.Nodup)
    (ref : Term) (inputs : List Term) (m : Nat) (v : TypedValue Term)
    (hread : Hydrate.hydrate (HyCtx.ofTerms c.reg c.xsd le ds) m none ref inputs = .ok v) (hdec : WellDecided c.reg v)
    (o : DeOptions) (ho : ∀ l, (o.order l).Perm l) (hnames : DistinctNames o) (hcount : o.inputCount = some inputs.length)
    (n : Nat) (quads : List (Quad Term)) (values : List Term)
    (hwrite : dehydrate c n v.untype ref o = .ok (quads, values)) :
    ∃ b, List.Forall₂ (Origin c.xsd o b) values inputs ∧ ∀ q ∈ quads, ∃ q' ∈ ds, q.Rel (Origin c.xsd o b) q' :=
  written_was_read c le hle hcl hkeys hrev ds hds ref inputs m v hread hdec o ho hnames hcount n quads values hwrite
    (W := WrittenAs c.xsd) .same fun _ _ _ h => h

example := C79_written_was_read_partial ReproduceExample.ctx ReproduceExample.le ReproduceExample.le_total
  ReproduceExample.reg_closed ReproduceExample.reg_distinctKeys ReproduceExample.reg_reversible
  (ReproduceExample.circles (ReproduceExample.decimal "1.0")) (by decide +kernel) _ _ 9 _ ReproduceExample.read_circles
  ReproduceExample.list_decided ReproduceExample.opts (fun _ => .refl _) ReproduceExample.opts_distinct rfl 9 _ _
  ReproduceExample.write_circles

/-- **C79** (canonical literals). When every literal at hand is in canonical form, the quads written are, up to generated
names, quads of the dataset that was read. -/
theorem C79_canonical_partial (c : DeCtx) (le : TypedValue Term → TypedValue Term → Bool) (hle : TotalOrder le)
    (hcl : c.reg.Closed) (hkeys : c.reg.DistinctKeys) (hrev : c.reg.Reversible) (ds : List (Quad Term)) (hds : ds.Nodup)
    (ref : Term) (inputs : List Term) (m : Nat) (v : TypedValue Term)
    (hread : Hydrate.hydrate (HyCtx.ofTerms c.reg c.xsd le ds) m none ref inputs = .ok v) (hdec : WellDecided c.reg v)
    (hcan : ∀ t, (HyCtx.ofTerms c.reg c.xsd le ds).Uses none inputs t → Canonical c.xsd t)
    (o : DeOptions) (ho : ∀ l, (o.order l).Perm l) (hnames : DistinctNames o) (hcount : o.inputCount = some inputs.length)
    (n : Nat) (quads : List (Quad Term)) (values : List Term)
    (hwrite : dehydrate c n v.untype ref o = .ok (quads, values)) :
    ∃ b, List.Forall₂ (Renamed o b) values inputs ∧ ∀ q ∈ quads, ∃ q' ∈ ds, q.Rel (Renamed o b) q' :=
  written_was_read c le hle hcl hkeys hrev ds hds ref inputs m v hread hdec o ho hnames hcount n quads values hwrite
    (W := fun u t => u = t) (fun _ => rfl) fun u t hu h => (hcan u hu t h).symm

example := C79_canonical_partial SumExample.ctx ReproduceExample.le ReproduceExample.le_total
  ReproduceExample.reg_closed ReproduceExample.reg_distinctKeys ReproduceExample.reg_reversible
  (ReproduceExample.circles (ReproduceExample.decimal "1")) (by decide +kernel) _ _ 9 _ ReproduceExample.read_circles'
  ReproduceExample.list_decided (fun t _ => ReproduceExample.canonical t) ReproduceExample.opts (fun _ => .refl _)
  ReproduceExample.opts_distinct rfl 9 _ _ ReproduceExample.write_circles'

/-- The tree that is read is accepted by its layouts, provided the IRIs at hand are valid. -/
theorem read_annotated (c : DeCtx) (le : TypedValue Term → TypedValue Term → Bool) (hkeys : c.reg.DistinctKeys)
    (ds : List (Quad Term)) (ref : Term) (inputs : List Term) (m : Nat) (v : TypedValue Term)
    (hread : Hydrate.hydrate (HyCtx.ofTerms c.reg c.xsd le ds) m none ref inputs = .ok v)
    (hiri : ∀ i, (HyCtx.ofTerms c.reg c.xsd le ds).Uses none inputs (.iri i) → c.isIri i = true) :
    Annotated c.reg c.isIri ref v := by
  let k := HyCtx.ofTerms c.reg c.xsd le ds
  let k' : HyCtx Term := { k with irisOf := fun r => (k.irisOf r).filter c.isIri }
  have hid : Quad.map (id : Term → Term) = id := by
    funext q
    obtain ⟨s, p, o, _ | g⟩ := q <;> rfl
  have h := (C67_same_tree k k' id none inputs rfl rfl rfl (by rw [hid]; simp [k']) (fun _ _ _ _ h => h)
    (fun _ _ => rfl) (fun r hr => by
      cases r with
      | iri i => simp [k', k, HyCtx.ofTerms, hiri i hr]
      | blank b => rfl
      | literal l => rfl) (fun _ _ => rfl) m ref v).2 hread
  exact (C06_hydrate_annotated k' c.isIri (fun r i hi => (List.mem_filter.1 hi).2) hkeys m _ ref _ v h).1

/-- **C79** (acceptance). The tree that was read is accepted back, when the literals at hand are in canonical form: no
resource can be given two terms. -/
theorem C79_accepted_partial (c : DeCtx) (le : TypedValue Term → TypedValue Term → Bool) (hle : TotalOrder le)
    (hcl : c.reg.Closed) (hkeys : c.reg.DistinctKeys) (hrev : c.reg.Reversible) (hw : c.reg.WellTyped)
    (ha : c.reg.AcyclicSums) (hs : c.Supported) (ds : List (Quad Term)) (hds : ds.Nodup)
    (ref : Term) (inputs : List Term) (m : Nat) (v : TypedValue Term)
    (hread : Hydrate.hydrate (HyCtx.ofTerms c.reg c.xsd le ds) m none ref inputs = .ok v) (hdec : WellDecided c.reg v)
    (hiri : ∀ i, (HyCtx.ofTerms c.reg c.xsd le ds).Uses none inputs (.iri i) → c.isIri i = true)
    (hp : v.untype.Printable c.xsd)
    (hcan : ∀ t, (HyCtx.ofTerms c.reg c.xsd le ds).Uses none inputs t → Canonical c.xsd t)
    (o : DeOptions) (hcount : o.inputCount = some inputs.length) :
    ∃ N, ∀ n, N ≤ n → ∃ quads values, dehydrate c n v.untype ref o = .ok (quads, values) := by
  have hu := uniquelyConforms (read_annotated c le hkeys ds ref inputs m v hread hiri) hdec
  obtain ⟨N, hN⟩ := C11_conforming_accepted c hkeys hcl hw ha hs ref v.untype hu hp
  obtain ⟨l, hl⟩ : ∃ l, c.reg ref = some l := by
    generalize v.untype = w at hu
    cases hu <;> exact ⟨_, ‹_›⟩
  have hk := run_count c le hle hcl ds hds ref inputs m v hread o hcount l hl
  refine ⟨N, fun n hn => ?_⟩
  obtain ⟨s, h⟩ := hN n hn none ((List.range (l.inputCount.getD (o.inputCount.getD 1))).map .input) ⟨[], [], 0⟩ (by
    intro l' k hl' hk
    rw [hl] at hl'
    obtain rfl := Option.some.inj hl'
    simp [hk])
  have hno : ¬ Conflict s := by
    have h' := h
    rw [hk] at h'
    obtain ⟨f, hterm, _, _, hterms⟩ := run_back c le hle hcl hkeys hrev ds hds ref inputs m v hread hdec n s h'
    have hsame : ∀ r t, (r, t) ∈ s.terms → t = f r := fun r t ht => hcan _ (hterms _ ht).1 _ (hterms _ ht).2
    rintro ⟨r, t, t', ht, hne, rfl | ht'⟩
    · exact hne ((hsame _ _ ht).trans (hterm t'))
    · exact hne ((hsame _ _ ht).trans (hsame _ _ ht').symm)
  unfold dehydrate
  rw [hl]
  simp only [h]
  rw [if_neg fun hamb => hno ((ambiguous_iff s).1 hamb)]
  exact ⟨_, _, rfl⟩

example := C79_accepted_partial SumExample.ctx ReproduceExample.le ReproduceExample.le_total
  ReproduceExample.reg_closed ReproduceExample.reg_distinctKeys ReproduceExample.reg_reversible ReproduceExample.reg_wellTyped
  ReproduceExample.reg_acyclicSums ReproduceExample.ctx_supported
  (ReproduceExample.circles (ReproduceExample.decimal "1")) (by decide +kernel) _ _ 9 _ ReproduceExample.read_circles'
  ReproduceExample.list_decided (fun _ _ => rfl) ReproduceExample.list_printable (fun t _ => ReproduceExample.canonical t)
  ReproduceExample.opts rfl

/-! ## What is excluded -/

/-- An IRI that is written is an IRI that was read. -/
theorem origin_iri {x : Xsd} {b : Term → Term} {i : String} {u : Term} (h : Origin x ReproduceExample.opts b (.iri i) u) :
    u = .iri i := by
  rcases h with h | ⟨_, h⟩
  · cases h; rfl
  · obtain ⟨s, hs⟩ := ReproduceExample.name_blank h
    exact nomatch hs

/-- A generated name stands for one term. -/
theorem origin_blank {x : Xsd} {b : Term → Term} {s : String} {u : Term} (h : Origin x ReproduceExample.opts b (.blank s) u) :
    u = .blank s ∨ u = b (.blank s) := by
  rcases h with h | ⟨h, _⟩
  · cases h; exact .inl rfl
  · exact .inr h

open ReproduceExample in
/-- **C79** fails for sums in general: the dog that was read is written as a cat too. -/
theorem C79_failed_variant_adds :
    Witness.leakCtx.reg.Reversible ∧
    Hydrate.hydrate (HyCtx.ofTerms Witness.leakCtx.reg Witness.leakCtx.xsd le dogQuads) 9 none (.iri "sum") [.iri "rex"] = .ok aDog ∧
    ∃ quads values, dehydrate Witness.leakCtx 9 aDog.untype (.iri "sum") opts = .ok (quads, values) ∧
      ¬ ∃ b, ∀ q ∈ quads, ∃ q' ∈ dogQuads, q.Rel (Origin Witness.leakCtx.xsd opts b) q' := by
  refine ⟨⟨?_, ?_⟩, by decide +kernel, [⟨.blank "i", .iri "type", .iri "Cat", none⟩,
    ⟨.blank "i", .iri "type", .iri "Dog", none⟩, ⟨.blank "i", .iri "barks", .literal ⟨"loud", .any "xsd:string"⟩, none⟩],
    [.blank "i"], by decide +kernel, ?_⟩
  · intro ref l h
    simp only [Witness.leakCtx] at h
    split at h
    · obtain rfl := Option.some.inj h; intro x; simp only [Nat.add_zero]; omega
    split at h
    · obtain rfl := Option.some.inj h; intro x; simp only [Witness.typed, Nat.add_zero]; omega
    split at h
    · obtain rfl := Option.some.inj h; intro x; simp only [Witness.typed, Nat.add_zero]; omega
    split at h
    · obtain rfl := Option.some.inj h; trivial
    · exact nomatch h
  · intro ref l h
    simp only [Witness.leakCtx] at h
    split at h
    · obtain rfl := Option.some.inj h; simp [Layout.formats, DeExample.val]
    split at h
    · obtain rfl := Option.some.inj h; simp [Layout.formats, DeExample.val, Witness.typed]
    split at h
    · obtain rfl := Option.some.inj h; simp [Layout.formats, DeExample.val, Witness.typed]
    split at h
    · obtain rfl := Option.some.inj h; simp [Layout.formats]
    · exact nomatch h
  · rintro ⟨b, h⟩
    obtain ⟨q', hq', _, hp, ho, _⟩ := h _ (List.mem_cons_self ..)
    have hp := origin_iri hp
    have ho := origin_iri ho
    simp only [dogQuads, List.mem_cons, List.not_mem_nil, or_false] at hq'
    rcases hq' with rfl | rfl
    · exact absurd ho (by decide)
    · exact absurd hp (by decide)

open ReproduceExample in
/-- **C79** fails for variables that a layout introduces and does not bind: two resources are read, that are written as
one. -/
theorem C79_unbound_introduction_adds :
    WellDecided pairReg aPair ∧
    Hydrate.hydrate (HyCtx.ofTerms pairCtx.reg pairCtx.xsd le pairQuads) 9 none (.iri "pair") [.iri "s"] = .ok aPair ∧
    ∃ quads values, dehydrate pairCtx 9 aPair.untype (.iri "pair") opts = .ok (quads, values) ∧
      ¬ ∃ b, ∀ q ∈ quads, ∃ q' ∈ pairQuads, q.Rel (Origin pairCtx.xsd opts b) q' := by
  refine ⟨.map ?_, by decide +kernel, [⟨.blank "i", .iri "p", .blank "b", none⟩, ⟨.blank "i", .iri "q", .blank "b", none⟩],
    [.blank "i"], by decide +kernel, ?_⟩
  · simp only [List.mem_cons, List.not_mem_nil, or_false, forall_eq_or_imp, forall_eq]
    exact ⟨.literal _, .literal _⟩
  · rintro ⟨b, h⟩
    obtain ⟨q1, hq1, _, hp1, ho1, _⟩ := h _ (List.mem_cons_self ..)
    obtain ⟨q2, hq2, _, hp2, ho2, _⟩ := h _ (List.mem_cons_of_mem _ (List.mem_cons_self ..))
    have hp1 := origin_iri hp1
    have hp2 := origin_iri hp2
    simp only [pairQuads, List.mem_cons, List.not_mem_nil, or_false] at hq1 hq2
    rcases hq1 with rfl | rfl
    · rcases hq2 with rfl | rfl
      · exact absurd hp2 (by decide)
      · rcases origin_blank ho1 with h1 | h1
        · exact nomatch h1
        · rcases origin_blank ho2 with h2 | h2
          · exact nomatch h2
          · exact absurd (h1.trans h2.symm) (by decide)
    · exact absurd hp1 (by decide)

open ReproduceExample in
/-- **C79** fails for parts described in a graph of their own: the cat that was read in the graph `G` is written in the
default graph. -/
theorem C79_graph_adds :
    WellDecided Witness.graphCtx.reg aCat ∧
    Hydrate.hydrate (HyCtx.ofTerms Witness.graphCtx.reg Witness.graphCtx.xsd le catQuads) 9 none (.iri "owner") [.iri "me"] =
      .ok aCat ∧
    ∃ quads values, dehydrate Witness.graphCtx 9 aCat.untype (.iri "owner") opts = .ok (quads, values) ∧
      ¬ ∃ b, ∀ q ∈ quads, ∃ q' ∈ catQuads, q.Rel (Origin Witness.graphCtx.xsd opts b) q' := by
  refine ⟨.map ?_, by decide +kernel, [⟨.blank "i", .iri "pet", .blank "b", none⟩, ⟨.blank "b", .iri "type", .iri "Cat", none⟩,
    ⟨.blank "b", .iri "meows", .literal ⟨"loud", .any "xsd:string"⟩, none⟩], [.blank "i"], by decide +kernel, ?_⟩
  · simp only [List.mem_cons, List.not_mem_nil, or_false, forall_eq_or_imp, forall_eq]
    refine .map ?_
    simp only [List.mem_cons, List.not_mem_nil, or_false, forall_eq_or_imp, forall_eq]
    exact .literal _
  · rintro ⟨b, h⟩
    obtain ⟨q', hq', _, hp, _, hg⟩ := h _ (List.mem_cons_of_mem _ (List.mem_cons_self ..))
    have hp := origin_iri hp
    simp only [ReproduceExample.catQuads, List.mem_cons, List.not_mem_nil, or_false] at hq'
    rcases hq' with rfl | rfl | rfl
    · exact absurd hp (by decide)
    · exact hg
    · exact hg

end Verif.Props
