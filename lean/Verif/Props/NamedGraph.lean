import Verif.NamedGraphLayouts
import Verif.Props.Stored
import Verif.Props.Compact

/-!
# Properties C87 and C88: named graphs

The specifications are in `Verif/NamedGraphSpec.lean` (`List.graph`, `List.putIn`, `NoGraph`, `Registry.naming`) and
`Verif/StoredSpec.lean` (`Document`).
-/

set_option linter.unusedSectionVars false
set_option linter.unusedSimpArgs false

namespace Verif.Props

open Dehydrate

/-- **C87** (reading). With layouts that name no graph, hydration in a graph of a dataset is hydration of that graph alone, as a
dataset of its own: same tree, same error, same panic. What the other graphs say does not matter. The current graph may be the
default one (`none`). -/
theorem C87_graph_alone {R : Type _} [DecidableEq R] (c : HyCtx R) (g : Option R) (ref : R) (h : NoGraph c.reg ref) (n : Nat)
    (ins : List R) :
    Hydrate.hydrate c n g ref ins = Hydrate.hydrate { c with ds := c.ds.graph g } n none ref ins :=
  Hydrate.hydrate_graph c g ref h n ref (.refl _) ins

/-- **C87** (layouts that name a graph, reading). Naming the graph `g` in each pattern of the layouts amounts to hydrating in the
graph `g`, whatever the current graph is. -/
theorem C87_naming_reads {R : Type _} [DecidableEq R] (c : HyCtx R) (g : R) (g' : Option R) (ref : R) (h : NoGraph c.reg ref)
    (n : Nat) (ins : List R) :
    Hydrate.hydrate { c with reg := c.reg.naming g } n g' ref ins = Hydrate.hydrate c n (some g) ref ins :=
  Hydrate.hydrate_naming c g g' ref h n ref (.refl _) ins

/-- **C87** (layouts that name a graph, writing). Naming the graph `g` in each pattern of the layouts moves what is written to that
graph, and changes nothing else: same subjects, same names, same errors and panics. The quads of one graph are listed in an order
that does not depend on which graph it is. -/
theorem C87_naming_writes (c : DeCtx) (g : Term) (ref : Term) (h : NoGraph c.reg ref) (n : Nat) (v : Value) (o : DeOptions)
    (hperm : ∀ l, (o.order l).Perm l)
    (hord : ∀ l, o.order (l.map fun q => { q with g := some (.term g) }) = (o.order l).map fun q => { q with g := some (.term g) }) :
    dehydrate { c with reg := c.reg.naming g } n v ref o = (dehydrate c n v ref o).map fun r => (r.1.putIn g, r.2) :=
  dehydrate_naming g c ref h n v o o.order fun l hl => ⟨hord l, fun q hq => hl q ((hperm l).mem_iff.1 hq)⟩

/-- The layouts of C17 name no graph. -/
theorem noGraph_of_tree {reg : Registry Term} {xsd : Xsd} {ref : Term} (h : TreeLayouts reg xsd ref) : NoGraph reg ref := by
  intro ref' hr l hl
  obtain ⟨l', hl', ht⟩ := h ref' hr
  rw [hl] at hl'
  injection hl' with e
  subst e
  have hc : ∀ {qs : List (QuadPat Term)}, ConstPats qs → ∀ q ∈ qs, q.g = none := by
    intro qs h q hq
    obtain ⟨p, o, rfl⟩ := h q hq
    rfl
  have hfield : ∀ f : Field Term, (∃ p, f.Uses reg p) ∨ f.IsId reg → (∀ q ∈ f.dataset, q.g = none) ∧ f.value.graph = none := by
    rintro f (⟨p, h | h⟩ | h)
    · exact ⟨by rw [h.2.1]; simp [linkPat], h.2.2.2⟩
    · exact ⟨by rw [h.1.2.1]; simp, h.1.2.2.2⟩
    · exact ⟨by rw [h.1.2.1]; simp, h.1.2.2.2⟩
  have hitem : ∀ (i : ItemLayout Term) p, i.IsLink p → (∀ q ∈ i.dataset, q.g = none) ∧ i.value.graph = none := by
    intro i p h
    exact ⟨by rw [h.2.1]; simp [linkPat], h.2.2.2⟩
  cases l with
  | never => exact ht.elim
  | always => exact ht.elim
  | byteString l => exact ht.elim
  | unit l => exact ⟨hc ht.2, by simp [Layout.formats]⟩
  | boolean l => exact ⟨by simp [Layout.patterns, ht.1.2.1], by simp [Layout.formats]⟩
  | number l => exact ⟨by simp [Layout.patterns, ht.1.2.1], by simp [Layout.formats]⟩
  | textString l => exact ⟨by simp [Layout.patterns, ht.1.2.1], by simp [Layout.formats]⟩
  | id l => exact ⟨by simp [Layout.patterns, ht.2.1], by simp [Layout.formats]⟩
  | product l =>
    constructor
    · intro q hq
      rcases List.mem_append.1 hq with hq | hq
      · exact hc ht.const q hq
      · obtain ⟨e, he, hq⟩ := List.mem_flatMap.1 hq
        exact (hfield e.2 (ht.fields e he)).1 q hq
    · intro f hf
      obtain ⟨e, he, rfl⟩ := List.mem_map.1 hf
      exact (hfield e.2 (ht.fields e he)).2
  | unordered l =>
    obtain ⟨p, h1, h2, h3, h4⟩ := ht
    exact ⟨by simpa [Layout.patterns, h3] using (hitem _ _ h4).1, by simpa [Layout.formats] using (hitem _ _ h4).2⟩
  | ordered l =>
    obtain ⟨first, rest, tail, h1, h2, h3, h4, h5, h6, h7, h8, h9⟩ := ht
    refine ⟨?_, by simpa [Layout.formats] using h9.2⟩
    simp only [Layout.patterns, h3, List.nil_append]
    intro q hq
    rcases (h8 q).1 hq with rfl | rfl <;> rfl
  | sized l =>
    obtain ⟨h1, h2, h3, h4, h5⟩ := ht
    constructor
    · intro q hq
      rcases List.mem_append.1 hq with hq | hq
      · exact hc h3 q hq
      · obtain ⟨i, hi, hq⟩ := List.mem_flatMap.1 hq
        obtain ⟨p, hp, -⟩ := h4 i hi
        exact (hitem i p hp).1 q hq
    · intro f hf
      obtain ⟨i, hi, rfl⟩ := List.mem_map.1 hf
      obtain ⟨p, hp, -⟩ := h4 i hi
      exact (hitem i p hp).2
  | sum l =>
    constructor
    · intro q hq
      rcases List.mem_append.1 hq with hq | hq
      · exact hc ht.const q hq
      · obtain ⟨i, hi, hq⟩ := List.mem_flatMap.1 hq
        exact hc (ht.variants i hi).2.1 q hq
    · intro f hf
      obtain ⟨i, hi, rfl⟩ := List.mem_map.1 hf
      exact (ht.variants i hi).2.2.2

theorem graph_nodup {all : List (Quad Term)} (h : all.Nodup) (g : Option Term) : (all.graph g).Nodup := by
  refine List.Nodup.map_on ?_ (h.filter _)
  intro q hq q' hq' e
  have h1 : q.g = g := by simpa using (List.mem_filter.1 hq).2
  have h2 : q'.g = g := by simpa using (List.mem_filter.1 hq').2
  obtain ⟨a, b, c, d⟩ := q
  obtain ⟨a', b', c', d'⟩ := q'
  simp only at h1 h2
  simp only [Quad.mk.injEq, and_true] at e
  obtain ⟨rfl, rfl, rfl⟩ := e
  rw [h1, h2]

theorem mem_graph {all : List (Quad Term)} {g : Option Term} {q : Quad Term} :
    q ∈ all.graph g ↔ q.g = none ∧ { q with g := g } ∈ all := by
  obtain ⟨a, b, c, d⟩ := q
  constructor
  · intro h
    obtain ⟨q', h1, h2⟩ := List.mem_map.1 h
    obtain ⟨h4, h3⟩ := List.mem_filter.1 h1
    have h3 : q'.g = g := by simpa using h3
    obtain ⟨a', b', c', d'⟩ := q'
    simp only at h3
    simp only [Quad.mk.injEq] at h2
    obtain ⟨rfl, rfl, rfl, rfl⟩ := h2
    subst h3
    exact ⟨rfl, h4⟩
  · rintro ⟨h1, h2⟩
    simp only at h1 h2
    subst h1
    exact List.mem_map.2 ⟨_, List.mem_filter.2 ⟨h2, by simp⟩, rfl⟩

/-- **C88** (documents in named graphs). What was written as a document is read back from any graph of any dataset that contains it,
moved to that graph, and that says nothing else about its nodes. The other graphs may say anything about them.

Missing: the layouts and trees that C17 excludes. -/
theorem C88_stored_partial (d : Document) (hd : d.Written) (le : TypedValue Term → TypedValue Term → Bool) (g : Option Term)
    (all : List (Quad Term)) (hall : all.Nodup) (hst : StoredIn d.options d.ids d.dataset d.subjects (all.graph g)) :
    ∃ w N, (∀ m, N ≤ m → Hydrate.hydrate (HyCtx.ofTerms d.ctx.reg d.ctx.xsd le all) m g d.layout d.subjects = .ok w) ∧
      SameTree d.ctx.reg d.layout d.tree w.untype := by
  obtain ⟨w, N, h1, h2⟩ := C81_stored_partial d hd le (all.graph g) (graph_nodup hall g) hst
  refine ⟨w, N, fun m hm => ?_, h2⟩
  rw [C87_graph_alone _ g d.layout (noGraph_of_tree hd.layouts)]
  exact h1 m hm

/-- **C88** (a graph for each document). Documents that are stored each in a graph of its own are all read back, even if they
describe the same things, and even if they were written with the same names for their blank nodes, as `C81_default_names` shows
they are by default.

Missing: the layouts and trees that C17 excludes. -/
theorem C88_documents_partial {ι : Type} (docs : ι → Document) (graphs : ι → Term) (hd : ∀ k, (docs k).Written)
    (all : List (Quad Term)) (hall : all.Nodup)
    (hstored : ∀ k q, q ∈ all.graph (some (graphs k)) ↔ q ∈ (docs k).dataset)
    (le : TypedValue Term → TypedValue Term → Bool) (k : ι) :
    ∃ w N, (∀ m, N ≤ m → Hydrate.hydrate (HyCtx.ofTerms (docs k).ctx.reg (docs k).ctx.xsd le all) m (some (graphs k))
        (docs k).layout (docs k).subjects = .ok w) ∧
      SameTree (docs k).ctx.reg (docs k).layout (docs k).tree w.untype :=
  C88_stored_partial (docs k) (hd k) le _ all hall
    ⟨fun q hq => (hstored k q).2 hq, fun q hq hnot _ => absurd ((hstored k q).1 hq) hnot⟩

/-- What is written by layouts that name no graph is in the default graph. -/
theorem dataset_plain {c : DeCtx} {ref : Term} (h : NoGraph c.reg ref) {n : Nat} {v : Value} {o : DeOptions}
    (hord : ∀ l, (o.order l).Perm l) {dataset : List (Quad Term)} {subjects : List Term}
    (hrun : dehydrate c n v ref o = .ok (dataset, subjects)) : ∀ q ∈ dataset, q.g = none := by
  unfold dehydrate at hrun
  cases hl : c.reg ref with
  | none => rw [hl] at hrun; simp at hrun
  | some l =>
    rw [hl] at hrun
    simp only at hrun
    obtain ⟨-, e2⟩ := dehydrateWith_naming (.iri "") c ref h n v none ref (.refl _)
      ((List.range (l.inputCount.getD (o.inputCount.getD 1))).map .input) ⟨[], [], 0⟩ (by intro q hq; simp at hq)
    rcases hr : dehydrateWith c n v none ref
      ((List.range (l.inputCount.getD (o.inputCount.getD 1))).map .input) ⟨[], [], 0⟩ with ⟨x, s⟩
    rw [hr] at e2 hrun
    cases x with
    | ok _ =>
      simp only at hrun e2
      by_cases ha : ambiguous s.terms = true
      · simp [ha] at hrun
      · simp only [ha, if_false, Bool.false_eq_true] at hrun
        injection hrun with hrun
        simp only [Prod.mk.injEq] at hrun
        have hp : ∀ q ∈ o.order s.out, q.g = none := fun q hq => e2 q ((hord _).mem_iff.1 hq)
        obtain ⟨-, m2⟩ := mapQuads_mv (.iri "") o hp (initialMap s.terms, 0)
        rw [← hrun.1]
        intro q hq
        exact m2 q (List.mem_dedup.1 hq)
    | err e => simp at hrun
    | panic => simp at hrun
    | fuel => simp at hrun

theorem graph_putIn {ds : List (Quad Term)} (h : ∀ q ∈ ds, q.g = none) (g : Term) : (ds.putIn g).graph (some g) = ds := by
  unfold List.graph List.putIn
  induction ds with
  | nil => rfl
  | cons q ds ih =>
    have ih := ih fun x hx => h x (by simp [hx])
    have hq := h q (by simp)
    obtain ⟨a, b, c, d⟩ := q
    simp only at hq
    subst hq
    simp only [List.map_cons, List.filter_cons, decide_true, if_true, ih]

/-- The options with the order of the quads of a graph, for the default graph. -/
def orderIn (o : DeOptions) (g : Term) : DeOptions :=
  { o with order := fun l => if ∀ q ∈ l, q.g = none then (o.order (l.map (mv g))).map fun q => { q with g := none } else l }

theorem orderIn_perm (o : DeOptions) (g : Term) (h : ∀ l, (o.order l).Perm l) (l : List (Quad IRes)) :
    ((orderIn o g).order l).Perm l := by
  unfold orderIn
  simp only
  split
  · rename_i hl
    refine ((h (l.map (mv g))).map _).trans ?_
    rw [List.map_map]
    conv_rhs => rw [← List.map_id l]
    refine List.Perm.of_eq (List.map_congr_left fun q hq => ?_)
    have := hl q hq
    obtain ⟨a, b, c, d⟩ := q
    simp only at this
    subst this
    rfl
  · exact .refl _

theorem orderIn_spec (o : DeOptions) (g : Term) (h : ∀ l, (o.order l).Perm l) (l : List (Quad IRes)) (hl : ∀ q ∈ l, q.g = none) :
    o.order (l.map (mv g)) = ((orderIn o g).order l).map (mv g) ∧ ∀ q ∈ (orderIn o g).order l, q.g = none := by
  refine ⟨?_, fun q hq => hl q ((orderIn_perm o g h l).mem_iff.1 hq)⟩
  unfold orderIn
  simp only [if_pos hl, List.map_map]
  conv_lhs => rw [← List.map_id (o.order (l.map (mv g)))]
  refine List.map_congr_left fun q hq => ?_
  obtain ⟨q', -, rfl⟩ := List.mem_map.1 ((h _).mem_iff.1 hq)
  rfl

/-- **C88** (round trip in a named graph), extending C17. Take the layouts of C17 and name the graph `g` in every pattern. What is
written with them is in the graph `g`, and is read back with them, whatever the current graph.

Missing: layouts that use several graphs; the layouts and trees that C17 excludes. -/
theorem C88_naming_round_trip_partial (c : DeCtx) (g : Term) (g' : Option Term) (le : TypedValue Term → TypedValue Term → Bool)
    (o : DeOptions) (hx : XsdLaws c.xsd) (hsort : c.reg.Sorted) (hb : BlankNames o) (hord : ∀ l, (o.order l).Perm l) (ref : Term)
    (htree : TreeLayouts c.reg c.xsd ref) (n : Nat) (v : Value) (hv : v.Sorted) (hne : Recoverable c.reg ref v)
    (hid : (nodeIds c.reg n ref v).Nodup) (dataset : List (Quad Term)) (subjects : List Term)
    (hrun : dehydrate { c with reg := c.reg.naming g } n v ref o = .ok (dataset, subjects)) :
    (∀ q ∈ dataset, q.g = some g) ∧
    ∃ w N, (∀ m, N ≤ m → Hydrate.hydrate (HyCtx.ofTerms (c.reg.naming g) c.xsd le dataset) m g' ref subjects = .ok w) ∧
      SameTree c.reg ref v w.untype := by
  have hng := noGraph_of_tree htree
  rw [dehydrate_naming g c ref hng n v o (orderIn o g).order (orderIn_spec o g hord)] at hrun
  cases hr : dehydrate c n v ref (orderIn o g) with
  | ok r =>
    obtain ⟨ds, ss⟩ := r
    change (dehydrate c n v ref (orderIn o g)).map _ = _ at hrun
    rw [hr] at hrun
    injection hrun with e
    simp only [Prod.mk.injEq] at e
    obtain ⟨rfl, rfl⟩ := e
    constructor
    · intro q hq
      obtain ⟨q', -, rfl⟩ := List.mem_map.1 hq
      rfl
    · have hb' : BlankNames (orderIn o g) := ⟨hb.generator, hb.input, hb.injective, hb.input_ne⟩
      obtain ⟨w, N, h1, h2⟩ := C17_tree_round_trip_partial c le (orderIn o g) hx hsort hb' (orderIn_perm o g hord) ref htree n v hv
        hne hid ds ss hr
      refine ⟨w, N, fun m hm => ?_, h2⟩
      have e1 := C87_naming_reads (HyCtx.ofTerms c.reg c.xsd le (ds.putIn g)) g g' ref hng m ss
      have e2 := C87_graph_alone (HyCtx.ofTerms c.reg c.xsd le (ds.putIn g)) (some g) ref hng m ss
      have e3 : ((HyCtx.ofTerms c.reg c.xsd le (ds.putIn g)).ds.graph (some g)) = ds :=
        graph_putIn (dataset_plain hng (orderIn_perm o g hord) hr) g
      rw [e3] at e2
      exact (e1.trans e2).trans (h1 m hm)
  | err e => change (dehydrate c n v ref (orderIn o g)).map _ = _ at hrun; rw [hr] at hrun; simp [Out.map] at hrun
  | panic => change (dehydrate c n v ref (orderIn o g)).map _ = _ at hrun; rw [hr] at hrun; simp [Out.map] at hrun
  | fuel => change (dehydrate c n v ref (orderIn o g)).map _ = _ at hrun; rw [hr] at hrun; simp [Out.map] at hrun

namespace Witness

open TreeExample

/-- The two clubs, written with the default options: they have the same blank nodes. -/
def plainClubs : Bool → Document
  | true => ⟨ctx, .default id, .iri "club", 6, chess, byDefault chess, [.blank "input0"]⟩
  | false => ⟨ctx, .default id, .iri "club", 6, go, byDefault go, [.blank "input0"]⟩

theorem plainClubs_written : ∀ k, (plainClubs k).Written
  | true => ⟨Example.xsd_laws, reg_sorted, default_blank_names id, fun _ => .refl _, trees (.iri "club") _ rfl, chess_sorted,
      chess_noEmpty, chess_ids 6, by decide +kernel⟩
  | false => ⟨Example.xsd_laws, reg_sorted, default_blank_names id, fun _ => .refl _, trees (.iri "club") _ rfl, go_sorted,
      go_recoverable, by decide +kernel, by decide +kernel⟩

/-- The names of their graphs. -/
def clubGraph : Bool → Term
  | true => .iri "graph1"
  | false => .iri "graph2"

/-- Both clubs, each in its graph. -/
def clubStore : List (Quad Term) := (byDefault chess).putIn (clubGraph true) ++ (byDefault go).putIn (clubGraph false)

theorem clubStore_graph : ∀ k, clubStore.graph (some (clubGraph k)) = (plainClubs k).dataset
  | true => by decide +kernel
  | false => by decide +kernel

end Witness

open Witness in
example := C88_documents_partial plainClubs clubGraph plainClubs_written clubStore (by decide +kernel)
  (fun k q => by rw [clubStore_graph k]) (fun _ _ => true)

open Witness in
example : clubStore.length = 24 := by decide +kernel

open Witness in
example : NoGraph TreeExample.reg (.iri "club") := noGraph_of_tree (TreeExample.trees (.iri "club") _ rfl)

namespace Witness

open TreeExample

/-- The club, written in a named graph. -/
def namedQuads : List (Quad Term) :=
  match dehydrate { ctx with reg := reg.naming (.iri "graph1") } 6 chess (.iri "club") (.default id) with
  | .ok (d, _) => d
  | _ => []

end Witness

open Witness TreeExample in
example := C88_naming_round_trip_partial ctx (.iri "graph1") none (fun _ _ => true) (.default id) Example.xsd_laws reg_sorted
  (default_blank_names id) (fun _ => .refl _) (.iri "club") (trees (.iri "club") _ rfl) 6 chess chess_sorted chess_noEmpty
  (chess_ids 6) namedQuads [.blank "input0"] (by decide +kernel)

open Witness TreeExample in
example := C87_naming_writes ctx (.iri "graph1") (.iri "club") (noGraph_of_tree (trees (.iri "club") _ rfl)) 6 chess (.default id)
  (fun _ => .refl _) (fun _ => rfl)

end Verif.Props
