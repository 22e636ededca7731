import Verif.IrrelevantSpec
import Verif.IrrelevantDerived
import Verif.Props.CombineAny

/-!
# What layouts do not speak about has no effect on reading (C96), and documents with different properties (C84)
-/

set_option linter.unusedSectionVars false
set_option linter.unusedSimpArgs false

namespace Verif.Props

open Hydrate Dehydrate

section

variable {R : Type} [DecidableEq R]

theorem covers_of_admits {p : QuadPat R} {g : Option R} {q : Quad R}
    (h : QuadPat.admits { p with g := p.g.or (g.map .res) } q = true) : p.Covers q := by
  obtain ⟨s, p', o, pg⟩ := p
  obtain ⟨a, b, c, qg⟩ := q
  simp only [QuadPat.admits, Bool.and_eq_true] at h
  obtain ⟨⟨⟨⟨⟨⟨h1, h2⟩, h3⟩, h12⟩, h13⟩, h23⟩, h4⟩ := h
  refine ⟨fun x => if s = .var x then some a else if p' = .var x then some b else if o = .var x then some c else qg, ?_, ?_, ?_, ?_⟩
  · cases s with
    | res r => exact (eq_of_beq h1).symm
    | var x => simp [Pattern.Denotes]
  · cases p' with
    | res r => exact (eq_of_beq h2).symm
    | var x =>
      simp only [Pattern.Denotes]
      by_cases e : s = .var x
      · subst e
        simpa [sameVar] using h12
      · simp [e]
  · cases o with
    | res r => exact (eq_of_beq h3).symm
    | var x =>
      simp only [Pattern.Denotes]
      by_cases e : s = .var x
      · subst e
        simpa [sameVar] using h13
      · rw [if_neg e]
        by_cases e' : p' = .var x
        · subst e'
          rw [if_pos rfl]
          simpa [sameVar] using h23
        · simp [e']
  · rintro pg' hpg
    simp only at hpg
    subst hpg
    cases qg with
    | none => simp at h4
    | some qg =>
      simp only [Option.some_or, Bool.and_eq_true] at h4
      obtain ⟨⟨⟨h4, h14⟩, h24⟩, h34⟩ := h4
      refine ⟨qg, rfl, ?_⟩
      cases pg' with
      | res r => exact (eq_of_beq h4).symm
      | var x =>
        simp only [Pattern.Denotes]
        by_cases e : s = .var x
        · subst e
          simpa [sameVar] using h14
        · rw [if_neg e]
          by_cases e' : p' = .var x
          · subst e'
            rw [if_pos rfl]
            simpa [sameVar] using h24
          · rw [if_neg e']
            by_cases e'' : o = .var x
            · subst e''
              rw [if_pos rfl]
              simpa [sameVar] using h34
            · rw [if_neg e'']

theorem keepsAll_of_concerns {reg : Registry R} {ref : R} {ds : List (Quad R)} {K : Quad R → Bool}
    (h : ∀ q ∈ ds, Concerns reg ref q → K q = true) :
    ∀ ref', Reaches reg ref ref' → ∀ l, reg ref' = some l → Matching.KeepsAll ds K l.patterns :=
  fun ref' hr l hl p hp _ q hq ha => h q hq ⟨ref', l, hr, hl, p, hp, covers_of_admits ha⟩

theorem uses_of_concerns {reg : Registry R} {ref : R} (hfix : FixedProperties reg ref) {q : Quad R} (h : Concerns reg ref q) :
    UsesProperty reg ref q.p := by
  obtain ⟨ref', l, hr, hl, p, hp, f, -, h2, -⟩ := h
  obtain ⟨t, ht⟩ := hfix ref' hr l hl p hp
  rw [ht] at h2
  have h2 : q.p = t := h2
  exact ⟨ref', l, hr, hl, p, hp, by rw [ht, h2]⟩

/-- **C96** (hydration). Two datasets that differ only in quads that match no pattern of the layout, nor of those it refers to, are
read in the same way: same tree, same error, same panic. -/
theorem C96_hydrate (c : HyCtx R) (ref : R) (ds : List (Quad R)) (K : Quad R → Bool)
    (hK : ∀ q, q ∈ c.ds ∨ q ∈ ds → Concerns c.reg ref q → K q = true) (h : c.ds.filter K = ds.filter K)
    (n : Nat) (g : Option R) (ins : List R) : hydrate c n g ref ins = hydrate { c with ds := ds } n g ref ins := by
  rw [hydrate_filter c K ref (keepsAll_of_concerns fun q hq => hK q (.inl hq)) n g ref (.refl ref),
    hydrate_filter { c with ds := ds } K ref (keepsAll_of_concerns (reg := c.reg) fun q hq => hK q (.inr hq)) n g ref (.refl ref)]
  simp only [h]

/-- **C96** (derived types). The same for the types derived from the layouts. -/
theorem C96_types (c : DsCtx R) (ref : R) (ds : List (Quad R)) (K : Quad R → Bool)
    (hK : ∀ q, q ∈ c.ds ∨ q ∈ ds → Concerns c.reg ref q → K q = true) (h : c.ds.filter K = ds.filter K)
    (n : Nat) (g : Option R) (ins : List R) :
    Derived.deserialize c n g ref ins = Derived.deserialize { c with ds := ds } n g ref ins := by
  rw [Derived.deserialize_kept c K ref (keepsAll_of_concerns fun q hq => hK q (.inl hq)) n g ref (.refl ref),
    Derived.deserialize_kept { c with ds := ds } K ref (keepsAll_of_concerns (reg := c.reg) fun q hq => hK q (.inr hq)) n g ref
      (.refl ref)]
  simp only [Derived.kept, h]

open Classical in
/-- **C96** (other properties, hydration). What a dataset says with properties that the layouts do not mention may be left out. -/
theorem C96_other_properties (c : HyCtx R) (ref : R) (hfix : FixedProperties c.reg ref) (n : Nat) (g : Option R) (ins : List R) :
    hydrate c n g ref ins = hydrate { c with ds := c.ds.filter fun q => UsesProperty c.reg ref q.p } n g ref ins := by
  refine C96_hydrate c ref _ (fun q => decide (UsesProperty c.reg ref q.p)) (fun q _ h => ?_) ?_ n g ins
  · simpa using uses_of_concerns hfix h
  · simp

open Classical in
/-- **C96** (other properties, derived types). The same for the types derived from the layouts. -/
theorem C96_types_other_properties (c : DsCtx R) (ref : R) (hfix : FixedProperties c.reg ref) (n : Nat) (g : Option R)
    (ins : List R) : Derived.deserialize c n g ref ins =
      Derived.deserialize { c with ds := c.ds.filter fun q => UsesProperty c.reg ref q.p } n g ref ins := by
  refine C96_types c ref _ (fun q => decide (UsesProperty c.reg ref q.p)) (fun q _ h => ?_) ?_ n g ins
  · simpa using uses_of_concerns hfix h
  · simp

end

/-! ## Documents with different properties -/

/-- **C84** (what is written). Dehydration writes with the properties of the layouts only. -/
theorem C84_written_properties (c : DeCtx) (n : Nat) (v : Value) (ref : Term) (o : DeOptions) (ho : ∀ l, (o.order l).Perm l)
    (quads : List (Quad Term)) (values : List Term) (h : dehydrate c n v ref o = .ok (quads, values))
    (hfix : FixedProperties c.reg ref) : ∀ q ∈ quads, UsesProperty c.reg ref q.p := by
  obtain ⟨l, count, s, f, -, -, hrun, -, hf, hq, -, -⟩ := C14_one_term_per_resource c n v ref o ho quads values h
  intro q hin
  obtain ⟨q', hq', rfl⟩ := (hq q).1 hin
  have hfrom := from_reached c (Reaches c.reg ref) (fun ref' l f h1 h2 h3 => .step h1 h2 h3) n v none ref
    ((List.range count).map .input) (.refl ref) ⟨[], [], 0⟩
  rw [hrun] at hfrom
  rcases hfrom q' hq' with h | ⟨p, ρ, ⟨ref', l', hr', hl', hp⟩, hi⟩
  · simp at h
  · obtain ⟨t, ht⟩ := hfix ref' hr' l' hl' p hp
    obtain ⟨-, i1, -⟩ := hi
    rw [ht] at i1
    exact ⟨ref', l', hr', hl', p, hp, by rw [ht, Quad.map, show q'.p = .term t from i1, hf.term]⟩

/-- **C84** (other properties). A document is read from a larger dataset as it is read alone, whatever the layouts and the inputs, if
the dataset says nothing else with the properties of its layouts: same tree, same error, same panic. -/
theorem C84_as_alone (c : HyCtx Term) (ref : Term) (hfix : FixedProperties c.reg ref) (document : List (Quad Term))
    (hother : ∀ q ∈ c.ds, UsesProperty c.reg ref q.p → q ∈ document) (n : Nat) (g : Option Term) (inputs : List Term) :
    hydrate c n g ref inputs = hydrate { c with ds := c.ds.filter fun q => q ∈ document } n g ref inputs := by
  refine C96_hydrate c ref _ (fun q => decide (q ∈ document)) (fun q hq h => ?_) (by simp) n g inputs
  rcases hq with hq | hq
  · simpa using hother q hq (uses_of_concerns hfix h)
  · exact (List.mem_filter.1 hq).2

/-- The tree of the document is read back from its dataset alone, whatever the order of the quads. C17 and C90 tell when. -/
def ReadBackAlone (c : DeCtx) (le : TypedValue Term → TypedValue Term → Bool) (subjects : List Term) (d : Document) : Prop :=
  ∀ ds : List (Quad Term), ds.Perm d.dataset → ∃ w, SameTree c.reg d.layout d.tree w.untype ∧
    ∃ N, ∀ k, N ≤ k → hydrate (HyCtx.ofTerms c.reg c.xsd le ds) k none d.layout subjects = .ok w

/-- The document was written, with layouts whose properties are fixed. -/
structure WrittenWith (c : DeCtx) (subjects : List Term) (d : Document) : Prop where
  written : dehydrate c d.depth d.tree d.layout d.options = .ok (d.dataset, subjects)
  order : ∀ l, (d.options.order l).Perm l
  properties : FixedProperties c.reg d.layout

/-- **C84** (each document). Trees are written on their own, with layouts that have no property in common. They are put together, with
anything that is said with other properties. Each tree that can be read back on its own is read back from the whole. -/
theorem C84_each_document (c : DeCtx) (le : TypedValue Term → TypedValue Term → Bool) (subjects : Document → List Term)
    (docs : List Document) (hd : ∀ d ∈ docs, WrittenWith c (subjects d) d)
    (hdiff : ∀ d ∈ docs, ∀ e ∈ docs, d = e ∨ ∀ p, UsesProperty c.reg d.layout p → ¬ UsesProperty c.reg e.layout p)
    (all : List (Quad Term)) (hall : all.Nodup) (hcontains : ∀ d ∈ docs, ∀ q ∈ d.dataset, q ∈ all)
    (hrest : ∀ q ∈ all, (∃ d ∈ docs, q ∈ d.dataset) ∨ ∀ d ∈ docs, ¬ UsesProperty c.reg d.layout q.p)
    (d : Document) (hdd : d ∈ docs) (hback : ReadBackAlone c le (subjects d) d) :
    ∃ w, SameTree c.reg d.layout d.tree w.untype ∧
      ∃ N, ∀ k, N ≤ k → hydrate (HyCtx.ofTerms c.reg c.xsd le all) k none d.layout (subjects d) = .ok w := by
  have hother : ∀ q ∈ all, UsesProperty c.reg d.layout q.p → q ∈ d.dataset := by
    intro q hq hu
    rcases hrest q hq with ⟨e, he, hqe⟩ | h
    · rcases hdiff d hdd e he with rfl | h
      · exact hqe
      · exact absurd (C84_written_properties c _ _ _ _ (hd e he).order _ _ (hd e he).written (hd e he).properties q hqe) (h _ hu)
    · exact absurd hu (h d hdd)
  have hperm : (all.filter fun q => q ∈ d.dataset).Perm d.dataset := by
    refine (List.perm_ext_iff_of_nodup (hall.filter _) (RoundTrip.dataset_nodup (hd d hdd).written)).2 fun q => ?_
    simp only [List.mem_filter, decide_eq_true_eq]
    exact ⟨fun h => h.2, fun h => ⟨hcontains d hdd q h, h⟩⟩
  obtain ⟨w, hw, N, hN⟩ := hback _ hperm
  exact ⟨w, hw, N, fun k hk =>
    (C84_as_alone (HyCtx.ofTerms c.reg c.xsd le all) d.layout (hd d hdd).properties d.dataset hother k none (subjects d)).trans (hN k hk)⟩

/-- **C84** (documents). Trees about the same subjects are written on their own, with record layouts that have no property in common,
and can be read back on their own. They are put together, with anything that is said with other properties. A record layout with the
fields of all of them reads from the whole a record with the members of all of them, and nothing else. -/
theorem C84_documents (c : DeCtx) (hcl : c.reg.Closed) (le : TypedValue Term → TypedValue Term → Bool) (subjects : List Term)
    (docs : List Document) (hd : ∀ d ∈ docs, WrittenWith c subjects d) (hback : ∀ d ∈ docs, ReadBackAlone c le subjects d)
    (hdiff : ∀ d ∈ docs, ∀ e ∈ docs, d = e ∨ ∀ p, UsesProperty c.reg d.layout p → ¬ UsesProperty c.reg e.layout p)
    (all : List (Quad Term)) (hall : all.Nodup) (hcontains : ∀ d ∈ docs, ∀ q ∈ d.dataset, q ∈ all)
    (hrest : ∀ q ∈ all, (∃ d ∈ docs, q ∈ d.dataset) ∨ ∀ d ∈ docs, ¬ UsesProperty c.reg d.layout q.p)
    (ref : Term) (l : ProductLayout Term) (hj : c.reg.Joins ref l (docs.map Document.layout)) :
    ∃ m N, (∀ k, N ≤ k → hydrate (HyCtx.ofTerms c.reg c.xsd le all) k none ref subjects = .ok (.map m ref)) ∧
      ∃ read : Document → List (Value × TypedValue Term),
        (∀ d ∈ docs, SameTree c.reg d.layout d.tree (.map (TypedValue.untypeMap (read d)))) ∧
        ∀ key v, (key, v) ∈ m ↔ ∃ d ∈ docs, (key, v) ∈ read d :=
  joined_reads (HyCtx.ofTerms c.reg c.xsd le all) hcl hall none subjects docs Document.layout
    (fun d v => SameTree c.reg d.layout d.tree v)
    (fun d h => C84_each_document c le (fun _ => subjects) docs hd hdiff all hall hcontains hrest d h (hback d h)) ref l hj

/-- **C84** (documents in a graph). The same when they are put together in one graph of a dataset, whatever its other graphs say, with
layouts that name no graph. -/
theorem C84_documents_in_graph (c : DeCtx) (hcl : c.reg.Closed) (le : TypedValue Term → TypedValue Term → Bool) (subjects : List Term)
    (docs : List Document) (hd : ∀ d ∈ docs, WrittenWith c subjects d) (hback : ∀ d ∈ docs, ReadBackAlone c le subjects d)
    (hdiff : ∀ d ∈ docs, ∀ e ∈ docs, d = e ∨ ∀ p, UsesProperty c.reg d.layout p → ¬ UsesProperty c.reg e.layout p)
    (g : Option Term) (all : List (Quad Term)) (hall : all.Nodup) (hcontains : ∀ d ∈ docs, ∀ q ∈ d.dataset, { q with g := g } ∈ all)
    (hrest : ∀ q ∈ all, q.g = g → (∃ d ∈ docs, { q with g := none } ∈ d.dataset) ∨ ∀ d ∈ docs, ¬ UsesProperty c.reg d.layout q.p)
    (ref : Term) (l : ProductLayout Term) (hj : c.reg.Joins ref l (docs.map Document.layout)) (hng : NoGraph c.reg ref) :
    ∃ m N, (∀ k, N ≤ k → hydrate (HyCtx.ofTerms c.reg c.xsd le all) k g ref subjects = .ok (.map m ref)) ∧
      ∃ read : Document → List (Value × TypedValue Term),
        (∀ d ∈ docs, SameTree c.reg d.layout d.tree (.map (TypedValue.untypeMap (read d)))) ∧
        ∀ key v, (key, v) ∈ m ↔ ∃ d ∈ docs, (key, v) ∈ read d := by
  -- the layouts of the documents name no graph: their fields and patterns are those of `ref`
  have hngd : ∀ d ∈ docs, NoGraph c.reg d.layout := by
    intro d hdd
    obtain ⟨l', hl', -⟩ := hj.records d.layout (List.mem_map.2 ⟨d, hdd, rfl⟩)
    have hsub : ∀ f ∈ (Layout.product l').formats, f ∈ (Layout.product l).formats := by
      intro f hf
      obtain ⟨e, he, rfl⟩ := List.mem_map.1 hf
      exact List.mem_map.2 ⟨e, (hj.fields e).2 ⟨d.layout, List.mem_map.2 ⟨d, hdd, rfl⟩, l', hl', he⟩, rfl⟩
    have hpat : ∀ p ∈ (Layout.product l').patterns, p ∈ (Layout.product l).patterns := by
      intro p hp
      rcases List.mem_append.1 hp with h | h
      · exact List.mem_append.2 (.inl ((hj.dataset p).2 ⟨d.layout, List.mem_map.2 ⟨d, hdd, rfl⟩, l', hl', h⟩))
      · obtain ⟨e, he, h⟩ := List.mem_flatMap.1 h
        exact List.mem_append.2 (.inr (List.mem_flatMap.2
          ⟨e, (hj.fields e).2 ⟨d.layout, List.mem_map.2 ⟨d, hdd, rfl⟩, l', hl', he⟩, h⟩))
    intro ref' hr
    -- what is reached from the part, other than the part itself, is reached from the whole
    have hreach : ref' = d.layout ∨ Reaches c.reg ref ref' := by
      induction hr with
      | refl => exact .inl rfl
      | step _ hl hf ih =>
        rcases ih with rfl | ih
        · rw [hl'] at hl
          obtain rfl := Option.some.inj hl
          exact .inr (.step (.refl ref) hj.layout (hsub _ hf))
        · exact .inr (.step ih hl hf)
    rcases hreach with rfl | h
    · intro l₁ hl₁
      rw [hl'] at hl₁
      obtain rfl := Option.some.inj hl₁
      obtain ⟨h1, h2⟩ := hng ref (.refl ref) _ hj.layout
      exact ⟨fun p hp => h1 p (hpat p hp), fun f hf => h2 f (hsub f hf)⟩
    · exact hng ref' h
  obtain ⟨m, N, hN, rest⟩ := C84_documents c hcl le subjects docs hd hback hdiff (all.graph g) (graph_nodup hall g)
    (fun d hdd q hq => List.mem_map.2 ⟨_, List.mem_filter.2 ⟨hcontains d hdd q hq, by simp⟩, by
      have := dataset_plain (hngd d hdd) (hd d hdd).order (hd d hdd).written q hq
      cases q
      simpa using this.symm⟩)
    (fun q hq => by
      obtain ⟨q', hq', rfl⟩ := List.mem_map.1 hq
      obtain ⟨h1, h2⟩ := List.mem_filter.1 hq'
      exact hrest q' h1 (by simpa using h2)) ref l hj
  refine ⟨m, N, fun k hk => ?_, rest⟩
  rw [C87_graph_alone _ g ref hng]
  exact hN k hk

/-! ## The seller and the buyer -/

namespace DealExample

open DeExample (q val c)

/-- Both documents, and the age of the buyer. -/
def whole : List (Quad Term) := [⟨.blank "input", .iri "age", str "30", none⟩] ++ purchaseDoc.dataset ++ saleDoc.dataset

theorem reaches {ref : Term} {l : ProductLayout Term} (hl : reg ref = some (.product l))
    (h : ∀ f ∈ (Layout.product l).formats, f.layout = .iri "text") (ref' : Term) (hr : Reaches reg ref ref') :
    ref' = ref ∨ ref' = .iri "text" := by
  induction hr with
  | refl => exact .inl rfl
  | step _ hl' hf ih =>
    rcases ih with rfl | rfl
    · rw [hl] at hl'
      obtain rfl := Option.some.inj hl'
      exact .inr (h _ hf)
    · obtain rfl := Option.some.inj hl'
      simp [Layout.formats] at hf

theorem uses_sale (p : Term) (h : UsesProperty reg (.iri "sale") p) : p = .iri "sells" ∨ p = .iri "name" := by
  obtain ⟨ref', l, hr, hl, q', hq, hp⟩ := h
  rcases reaches (l := sale) rfl (by simp [Layout.formats, sale, val]) ref' hr with rfl | rfl
  · obtain rfl := Option.some.inj hl
    simp only [Layout.patterns, sale, q, c, List.flatMap_cons, List.flatMap_nil, List.append_nil, List.cons_append, List.nil_append,
      List.mem_cons, List.not_mem_nil, or_false] at hq
    rcases hq with rfl | rfl <;> simp at hp <;> simp [← hp]
  · obtain rfl := Option.some.inj hl
    simp [Layout.patterns, DeExample.text] at hq

theorem uses_purchase (p : Term) (h : UsesProperty reg (.iri "purchase") p) : p = .iri "buys" ∨ p = .iri "address" := by
  obtain ⟨ref', l, hr, hl, q', hq, hp⟩ := h
  rcases reaches (l := purchase) rfl (by simp [Layout.formats, purchase, val]) ref' hr with rfl | rfl
  · obtain rfl := Option.some.inj hl
    simp only [Layout.patterns, purchase, q, c, List.flatMap_cons, List.flatMap_nil, List.append_nil, List.cons_append, List.nil_append,
      List.mem_cons, List.not_mem_nil, or_false] at hq
    rcases hq with rfl | rfl <;> simp at hp <;> simp [← hp]
  · obtain rfl := Option.some.inj hl
    simp [Layout.patterns, DeExample.text] at hq

theorem fixedProperties (ref : Term) : FixedProperties reg ref := by
  intro ref' _
  refine reg_cases ?_ ?_ ?_ ?_ ref' <;> simp [sale, purchase, deal, DeExample.text, Layout.patterns, q, c]

theorem writtenWith : ∀ d ∈ [saleDoc, purchaseDoc], WrittenWith ctx subjects d :=
  fun d hd => ⟨(written d hd).written, (written d hd).order, fixedProperties _⟩

theorem different : ∀ d ∈ [saleDoc, purchaseDoc], ∀ e ∈ [saleDoc, purchaseDoc],
    d = e ∨ ∀ p, UsesProperty ctx.reg d.layout p → ¬ UsesProperty ctx.reg e.layout p := by
  have h : ∀ p, UsesProperty reg (.iri "sale") p → ¬ UsesProperty reg (.iri "purchase") p := by
    intro p h1 h2
    rcases uses_sale p h1 with rfl | rfl <;> have := uses_purchase _ h2 <;> simp at this
  simp only [List.mem_cons, List.not_mem_nil, or_false, forall_eq_or_imp, forall_eq, true_or, true_and, and_true]
  exact ⟨.inr h, .inr fun p h1 h2 => h p h2 h1⟩

/-- Any dataset with the quads of the document and nothing else is unambiguous. -/
theorem followsAlone {ds : List (Quad Term)} (h : ∀ p, SingleValued ds p) : ∀ ref l, reg ref = some l → l.Follows (SingleValued ds) := by
  refine reg_cases ?_ ?_ ?_ ?_
  · refine ⟨⟨?_, ?_, .inl ⟨?_, ?_⟩, trivial⟩, ?_⟩
    case refine_5 =>
      simp only [sale, List.mem_cons, List.not_mem_nil, or_false, forall_eq]
      exact ⟨by simp [boundVars, Pattern.BoundIn, Pattern.vars, q, c], by simp [q], .inr ⟨_, rfl, h _⟩, trivial⟩
    all_goals simp [Layout.inputCount, sale, Pattern.BoundIn, Pattern.vars, q, c]
  · refine ⟨⟨?_, ?_, .inl ⟨?_, ?_⟩, trivial⟩, ?_⟩
    case refine_5 =>
      simp only [purchase, List.mem_cons, List.not_mem_nil, or_false, forall_eq]
      exact ⟨by simp [boundVars, Pattern.BoundIn, Pattern.vars, q, c], by simp [q], .inr ⟨_, rfl, h _⟩, trivial⟩
    all_goals simp [Layout.inputCount, purchase, Pattern.BoundIn, Pattern.vars, q, c]
  · refine ⟨⟨?_, ?_, .inl ⟨?_, ?_⟩, ?_, ?_, .inl ⟨?_, ?_⟩, trivial⟩, ?_⟩
    case refine_9 =>
      simp only [deal, sale, purchase, List.cons_append, List.nil_append, List.mem_cons, List.not_mem_nil, or_false, forall_eq_or_imp,
        forall_eq]
      exact ⟨⟨by simp [boundVars, Pattern.BoundIn, Pattern.vars, q, c], by simp [q], .inr ⟨_, rfl, h _⟩, trivial⟩,
        ⟨by simp [boundVars, Pattern.BoundIn, Pattern.vars, q, c], by simp [q], .inr ⟨_, rfl, h _⟩, trivial⟩⟩
    all_goals simp [Layout.inputCount, deal, Pattern.BoundIn, Pattern.vars, q, c]
  · exact ⟨trivial, trivial⟩

theorem readBackAlone : ∀ d ∈ [saleDoc, purchaseDoc], ReadBackAlone ctx ReproduceExample.le subjects d := by
  intro d hd ds hperm
  have hsingle : ∀ p, SingleValued ds p := by
    have : ∀ d ∈ [saleDoc, purchaseDoc], ∀ q ∈ d.dataset, ∀ q' ∈ d.dataset, q.p = q'.p → q.o = q'.o := by
      simp only [List.mem_cons, List.not_mem_nil, or_false, forall_eq_or_imp, forall_eq]
      exact ⟨by decide +kernel, by decide +kernel⟩
    exact fun p q hq q' hq' h1 h2 _ _ => this d hd q (hperm.mem_iff.1 hq) q' (hperm.mem_iff.1 hq') (h1.trans h2.symm)
  have W := written d hd
  have hne : d.tree.NoEmptyList := by
    simp only [List.mem_cons, List.not_mem_nil, or_false] at hd
    rcases hd with rfl | rfl
    all_goals
      refine .map _ ?_
      simp only [List.mem_cons, List.not_mem_nil, or_false, forall_eq]
      exact .literal _
  obtain ⟨w, hw, N, hN⟩ := C90_single_valued ctx Example.xsd_laws closed sorted wellTyped graph (fun ref l h => absurd h (noSum ref l)) binds
    d.depth d.tree d.layout d.options W.order d.dataset subjects W.written ReproduceExample.le ReproduceExample.le_total ds
    (hperm.nodup_iff.2 (RoundTrip.dataset_nodup W.written)) (fun q hq => hperm.mem_iff.2 hq)
    (fun r _ l h => settled_fixed (fixed r l h)) W.tree hne W.ends (fun ref l h => absurd h (noSum ref l)) (followsAlone hsingle)
    (absent_fixed fun r _ l h => fixed r l h)
  exact ⟨w, hw ▸ .leaf .., N, hN⟩

theorem rest : ∀ q ∈ whole, (∃ d ∈ [saleDoc, purchaseDoc], q ∈ d.dataset) ∨
    ∀ d ∈ [saleDoc, purchaseDoc], ¬ UsesProperty ctx.reg d.layout q.p := by
  intro q hq
  simp only [whole, List.cons_append, List.nil_append, List.mem_cons, List.mem_append] at hq
  rcases hq with rfl | hq | hq
  · right
    simp only [List.mem_cons, List.not_mem_nil, or_false, forall_eq_or_imp, forall_eq]
    exact ⟨fun h => by have := uses_sale _ h; simp at this, fun h => by have := uses_purchase _ h; simp at this⟩
  · exact .inl ⟨purchaseDoc, by simp, hq⟩
  · exact .inl ⟨saleDoc, by simp, hq⟩

theorem whole_contains : ∀ d ∈ [saleDoc, purchaseDoc], ∀ q ∈ d.dataset, q ∈ whole := by
  simp only [List.mem_cons, List.not_mem_nil, or_false, forall_eq_or_imp, forall_eq]
  exact ⟨by decide +kernel, by decide +kernel⟩

example := C84_documents ctx closed ReproduceExample.le subjects [saleDoc, purchaseDoc] writtenWith readBackAlone different whole
  (by decide +kernel) whole_contains rest (.iri "deal") deal joins

example := C84_each_document ctx ReproduceExample.le (fun _ => subjects) [saleDoc, purchaseDoc] writtenWith different whole
  (by decide +kernel) whole_contains rest saleDoc (by simp) (readBackAlone _ (by simp))

example := C84_documents_in_graph ctx closed ReproduceExample.le subjects [saleDoc, purchaseDoc] writtenWith readBackAlone different
  (some (.iri "g")) ([⟨.blank "input", .iri "address", str "1 Low Street", none⟩] ++ whole.putIn (.iri "g")) (by decide +kernel)
  (by simp only [List.mem_cons, List.not_mem_nil, or_false, forall_eq_or_imp, forall_eq]
      exact ⟨by decide +kernel, by decide +kernel⟩)
  (fun q hq hg => by
    rcases List.mem_append.1 hq with h | h
    · simp only [List.mem_singleton] at h
      subst h
      exact nomatch hg
    · obtain ⟨q', hq', rfl⟩ := List.mem_map.1 h
      have hplain : ∀ q ∈ whole, q.g = none := by decide +kernel
      have e : ({ q' with g := none } : Quad Term) = q' := by
        have := hplain q' hq'
        cases q'
        simpa using this.symm
      simpa only [e] using rest q' hq')
  (.iri "deal") deal joins
  (fun ref' _ => by
    refine reg_cases ?_ ?_ ?_ ?_ ref' <;> simp [sale, purchase, deal, DeExample.text, Layout.patterns, Layout.formats, q, val])

-- the age does not matter
example : hydrate (HyCtx.ofTerms reg Example.xsd ReproduceExample.le whole) 4 none (.iri "deal") subjects =
    hydrate (HyCtx.ofTerms reg Example.xsd ReproduceExample.le (purchaseDoc.dataset ++ saleDoc.dataset)) 4 none (.iri "deal") subjects := by
  refine C96_hydrate (HyCtx.ofTerms reg Example.xsd ReproduceExample.le whole) (.iri "deal") (purchaseDoc.dataset ++ saleDoc.dataset)
    (fun x => decide (x.p ≠ .iri "age")) (fun x _ h => ?_) (by decide +kernel) 4 none subjects
  obtain ⟨ref', l, -, hl, p, hp, e⟩ := uses_of_concerns (fixedProperties _) h
  have := reg_cases (P := fun l => ∀ p ∈ l.patterns, p.p ≠ .res (.iri "age"))
    (by simp [sale, Layout.patterns, q, c]) (by simp [purchase, Layout.patterns, q, c])
    (by simp [deal, sale, purchase, Layout.patterns, q, c]) (by simp [DeExample.text, Layout.patterns]) ref' l hl p hp
  rw [e] at this
  simpa using this

end DealExample

namespace SetExample

open DeExample (q val c)

theorem fixedProperties (ref : Term) : FixedProperties reg ref := by
  intro ref' _
  refine reg_cases ?_ ?_ ?_ ref' <;> simp [team, person, DeExample.text, Layout.patterns, q, c]

-- the type derived from the layout of a team reads the same members, whatever their ages
example : Derived.deserialize (reading dataset) 4 none (.iri "team") [.blank "input0"] =
    Derived.deserialize (reading (⟨.blank "b", .iri "age", str "30", none⟩ :: dataset)) 4 none (.iri "team") [.blank "input0"] := by
  refine C96_types (reading dataset) (.iri "team") (⟨.blank "b", .iri "age", str "30", none⟩ :: dataset)
    (fun x => decide (x.p ≠ .iri "age")) (fun x _ h => ?_) (by decide +kernel) 4 none [.blank "input0"]
  obtain ⟨ref', l, -, hl, p, hp, e⟩ := uses_of_concerns (fixedProperties _) h
  have := reg_cases (P := fun l => ∀ p ∈ l.patterns, p.p ≠ .res (.iri "age"))
    (by simp [team, Layout.patterns, q, c]) (by simp [person, Layout.patterns, q, c])
    (by simp [DeExample.text, Layout.patterns]) ref' l hl p hp
  rw [e] at this
  simpa using this

example := C96_types_other_properties (reading dataset) (.iri "team") (fixedProperties _) 4 none [.blank "input0"]

example := C96_other_properties hy (.iri "team") (fixedProperties _) 4 none [.blank "input0"]

end SetExample

namespace Witness

open DeExample (q val c)

/-- A record with a field whose property is a variable. -/
def anyProperty : Registry Term
  | .iri "any" => some (.product { input := 1, intro := 0, dataset := [], fields := [
      (.text "value", { intro := 2, value := val "text" 2, dataset := [q (.var 0) (.var 1) (.var 2)], required := true })] })
  | .iri "text" => some (.textString DeExample.text)
  | _ => none

/-- With a variable as property, quads with any property concern the layout: they cannot be left out. -/
theorem C96_variable_property :
    (hydrate (HyCtx.ofTerms anyProperty Example.xsd (fun _ _ => true)
      [⟨.blank "a", .iri "name", DealExample.str "A", none⟩]) 4 none (.iri "any") [.blank "a"]).map TypedValue.untype =
        .ok (.map [(.text "value", .text "A")]) ∧
    (hydrate (HyCtx.ofTerms anyProperty Example.xsd (fun _ _ => true)
      [⟨.blank "a", .iri "name", DealExample.str "A", none⟩, ⟨.blank "a", .iri "age", DealExample.str "30", none⟩]) 4 none (.iri "any")
        [.blank "a"]).map TypedValue.untype = .err (.dataAmbiguity (.key (.iri "any") (.text "value"))) := by
  decide +kernel

end Witness

end Verif.Props
