import Verif.Props.CliClosed
import Verif.Props.CompactCli
import Verif.Props.ReadBack
import Verif.Props.NamedGraph

/-!
# Property C92: C90 from the layout files to the commands; two trees written to one dataset (C90)
-/

set_option linter.unusedSectionVars false
set_option linter.unusedSimpArgs false

namespace Verif.Props

open Hydrate Dehydrate Keeping

/-- The fields of the records given to a command are sorted, whatever the layout files are. -/
theorem loaded_sorted {env : LoadEnv Term} {args : CliArgs} {reg : Registry Term} {d : DefaultLayout Term}
    (hp : prepare env (preludeRegistry Term.iri) args = .ok (reg, d)) : reg.Sorted := by
  intro ref p ha
  obtain ⟨ds, hl, h2, h3⟩ := C36_cli _ _ _ _ _ hp
  by_cases hr : ∀ d ∈ ds, ref ∉ d.2.1.keys
  · rw [h3 ref hr] at ha
    split at ha
    · cases ha
    · obtain ⟨e, he, h⟩ := Option.map_eq_some_iff.1 ha
      have he := List.mem_of_find?_eq_some he
      simp only [preludeTable, List.mem_cons, List.not_mem_nil, or_false] at he
      rcases he with rfl | rfl | rfl | rfl | rfl | rfl | rfl | rfl | rfl | rfl | rfl | rfl <;> cases h
  · simp only [not_forall, not_not] at hr
    obtain ⟨d, hd, hk⟩ := hr
    obtain ⟨x, hx⟩ := Option.isSome_iff_exists.1 (mem_keys_iff.1 hk)
    obtain ⟨j, n, k, hj, hload⟩ := loads_file hl d hd
    obtain ⟨l, b, hparse, hbuild, hall, -⟩ := loadDocument_ok hload
    have := h2 d hd ref x.1 x.2 (mem_of_lookup' hx)
    rw [ha] at this
    injection this with this
    obtain ⟨e, he, hb⟩ := lookup_buildAll _ _ hall ref x hx
    rw [← this] at hb
    obtain ⟨l', env', hs, hn, hm⟩ := (new_layouts env.ctx l _ b _ hbuild ref e he).resolve_left (by simp)
    have hsort := parsed_sorted hparse hs
    have hm := hm.1
    have he : e.layout = .product p := by
      cases hel : e.layout <;> rw [hel] at hb <;> simp only [AbsLayout.build, Out.bind_eq_ok, Out.ok.injEq, reduceCtorEq,
        Layout.product.injEq, and_false, exists_false] at hb
      rw [hb]
    rw [he] at hm
    cases l' <;> simp only [SLayout.Means] at hm
    case product hd fields =>
      obtain ⟨_, env'', h, -, hf⟩ := hm
      cases h
      have := keys_eq ((fields_means_get _ hf).imp fun _ _ h => h.1)
      simp only [SLayout.SortedFields] at hsort
      unfold SortedKeys at hsort ⊢
      rw [this]
      exact hsort
    case bool => split at hm <;> exact nomatch hm
    all_goals first
      | exact hm.elim
      | (obtain ⟨_, _, h, -⟩ := hm; cases h; done)
      | (obtain ⟨_, _, _, _, _, h, -⟩ := hm; cases h)

variable {F : Type}

/-- **C92** (sets). If `tldr dehydrate` turns a JSON document into a dataset, then `tldr hydrate`, given any dataset with these quads,
the same layout and the right subjects, prints a JSON document that stands for the same tree, up to the order and repetition of the items
of sets, if nothing is ambiguous in the dataset and it says nothing but the tree. No value format selects a named graph; variants of sums
introduce no variables; literal layouts are defined with one input. As in C71, numbers are greater than `-1`. -/
theorem C92_sets (env : FormatEnv F) (hpre : env.prelude = preludeRegistry Term.iri) (laws : XsdLaws env.xsd)
    (hle : TotalOrder env.le) (ho : ∀ l, (env.options.order l).Perm l) (args : CliArgs) (h1 : args.OneInput env.load)
    (layout : Option Term) (input : Input F) (j : Json) (hin : input.json = some j) (quads : List (Quad Term))
    (h : runCli env args (some (.dehydrate .json .nQuads layout)) input = .ok (some (.nQuads quads))) :
    ∃ reg d ref v values, prepare env.load env.prelude args = .ok (reg, d) ∧ d.get layout = .ok ref ∧ j.toValue = .ok v ∧
      dehydrate ⟨reg, env.isIri, env.xsd⟩ env.depth v ref env.options = .ok (quads, values) ∧
      ((∀ r l, reg r = some l → ∀ f ∈ l.formats, ∀ p, f.graph ≠ some (some p)) → reg.NoVariantIntro →
        (∀ r l, reg r = some l → l.Binds) →
        (v.AllNumbers fun n => -1 < n) → EndsFresh reg v env.options →
        ∀ (input' : Input F) (data : List (Quad Term)), input'.nQuads = some data → (∀ q ∈ quads, q ∈ data) →
          (HyCtx.ofTerms reg env.xsd env.le data.dedup).ToldApart →
          Unambiguous (HyCtx.ofTerms reg env.xsd env.le data.dedup) none ref values →
          Exact (HyCtx.ofTerms reg env.xsd env.le data.dedup) env.depth none ref values v →
          ∃ j' u, j'.toValue = .ok u ∧ SameTree reg ref v u ∧ ∃ N, ∀ n, N ≤ n →
            runCli { env with depth := n } args (some (.hydrate .nQuads .json layout values)) input' = .ok (some (.json j'))) := by
  simp only [runCli, Out.bind_eq_ok, Out.ok.injEq, Command.run] at h
  obtain ⟨⟨layouts, d⟩, hl, p', ⟨ref, hd, v, hv, r, hr, rfl⟩, hq⟩ := h
  have hp := prepare_of_loadFiles env args layouts d hl
  have hcl := C22_loaded (hpre ▸ hp) h1
  have hso := loaded_sorted (hpre ▸ hp)
  rw [Out.mapErr_eq_ok] at hr
  have hv' : j.toValue = .ok v := by
    simp only [TreeFormat.load, hin] at hv
    cases hj : j.toValue with
    | ok w => rw [hj] at hv; injection hv with hv; rw [hv]
    | err e => exact nomatch e
    | panic => rw [hj] at hv; cases hv
    | fuel => rw [hj] at hv; cases hv
  obtain ⟨quads', values⟩ := r
  simp only [RdfFormat.write, Option.some.injEq, Printed.nQuads.injEq] at hq
  subst hq
  refine ⟨_, d, ref, v, values, hp, hd, hv', hr, ?_⟩
  intro hgraph hno hbind hnum hends input' data hdata hsub hapart hun hex
  have hwf := toValue_wf j v hv'
  obtain ⟨w, hsame, N, hN⟩ := C90_sets ⟨env.registry args layouts, env.isIri, env.xsd⟩ laws hcl hso hgraph hno hbind env.depth
    v ref env.options ho quads' values hr env.le hle data.dedup (List.nodup_dedup _)
    (fun q hq' => List.mem_dedup.2 (hsub q hq')) hwf.sorted hends hapart hun hex
  obtain ⟨hjson, hwf'⟩ := hsame.json ((toValue_compatible j v hv').and hnum) hwf
  obtain ⟨j', hj'⟩ := (C35_domain_partial w.untype).2 hjson
  refine ⟨j', w.untype, C35_roundtrip _ hwf' _ hj', hsame, N, fun n hn => ?_⟩
  simp only [runCli, hl, Out.bind_ok, Command.run, hd, RdfFormat.load, hdata, TreeFormat.writeTyped]
  have h3 : Hydrate.hydrate (HyCtx.ofTerms (({ env with depth := n } : FormatEnv F).registry args layouts) env.xsd env.le data.dedup)
      n none ref values = .ok w := hN n hn
  simp only [h3, Out.mapErr, Out.bind_ok, hj']

/-- **C92.** If `tldr dehydrate` turns a JSON document into a dataset, then `tldr hydrate`, given any dataset with these quads, the
same layout and the right subjects, prints a JSON document that stands for the same tree, if nothing is ambiguous in the dataset.
The layouts have no sets or `always` layouts, and the dataset says nothing for the optional fields that the tree does not have; no
value format selects a named graph; variants of sums introduce no variables; literal layouts are defined with one input. As in C71, numbers are greater than `-1` and lists are not empty. -/
theorem C92_tool (env : FormatEnv F) (hpre : env.prelude = preludeRegistry Term.iri) (laws : XsdLaws env.xsd)
    (hle : TotalOrder env.le) (ho : ∀ l, (env.options.order l).Perm l) (args : CliArgs) (h1 : args.OneInput env.load)
    (layout : Option Term) (input : Input F) (j : Json) (hin : input.json = some j) (quads : List (Quad Term))
    (h : runCli env args (some (.dehydrate .json .nQuads layout)) input = .ok (some (.nQuads quads))) :
    ∃ reg d ref v values, prepare env.load env.prelude args = .ok (reg, d) ∧ d.get layout = .ok ref ∧ j.toValue = .ok v ∧
      dehydrate ⟨reg, env.isIri, env.xsd⟩ env.depth v ref env.options = .ok (quads, values) ∧
      ((∀ r l, reg r = some l → ∀ f ∈ l.formats, ∀ p, f.graph ≠ some (some p)) → reg.NoVariantIntro →
        (∀ r l, reg r = some l → l.Binds) → (∀ r, Reaches reg ref r → ∀ l, reg r = some l → l.Settled) →
        (v.AllNumbers fun n => -1 < n) → v.NoEmptyList → EndsFresh reg v env.options →
        ∀ (input' : Input F) (data : List (Quad Term)), input'.nQuads = some data → (∀ q ∈ quads, q ∈ data) →
          (HyCtx.ofTerms reg env.xsd env.le data.dedup).ToldApart →
          Unambiguous (HyCtx.ofTerms reg env.xsd env.le data.dedup) none ref values →
          Absent (HyCtx.ofTerms reg env.xsd env.le data.dedup) none ref values v →
          ∃ j', j'.toValue = .ok v ∧ ∃ N, ∀ n, N ≤ n →
            runCli { env with depth := n } args (some (.hydrate .nQuads .json layout values)) input' = .ok (some (.json j'))) := by
  obtain ⟨reg, d, ref, v, values, h1', h2, h3, h4, h5⟩ := C92_sets env hpre laws hle ho args h1 layout input j hin quads h
  refine ⟨reg, d, ref, v, values, h1', h2, h3, h4, ?_⟩
  intro hgraph hno hbind hset hnum hne hends input' data hdata hsub hapart hun hab
  obtain ⟨j', u, hj', hs, hN⟩ := h5 hgraph hno hbind hnum hends input' data hdata hsub hapart hun (exact_absent env.depth hset hne hab)
  obtain rfl := eq_of_sameTree (fun r hr l hl => hset r hr _ hl) hs
  exact ⟨j', hj', hN⟩

/-- **C90** (one tree, with sets). What was written determines the tree: if two trees are written with one layout, in any way, to one
dataset and for the same subjects, and nothing is ambiguous in the dataset, which says nothing but the first tree and
nothing but the second one, then they are the same, up to the order and repetition of the items of sets: there is one reading. -/
theorem C90_one_tree_sets (c : DeCtx) (laws : XsdLaws c.xsd) (hcl : c.reg.Closed) (hso : c.reg.Sorted)
    (hgraph : ∀ ref l, c.reg ref = some l → ∀ f ∈ l.formats, ∀ p, f.graph ≠ some (some p))
    (hno : c.reg.NoVariantIntro) (hbind : ∀ ref l, c.reg ref = some l → l.Binds) (ref : Term)
    (n n' : Nat) (v v' : Value) (o o' : DeOptions) (ho : ∀ l, (o.order l).Perm l) (ho' : ∀ l, (o'.order l).Perm l)
    (quads quads' : List (Quad Term)) (values : List Term) (h : dehydrate c n v ref o = .ok (quads, values))
    (h' : dehydrate c n' v' ref o' = .ok (quads', values))
    (le : TypedValue Term → TypedValue Term → Bool) (hle : TotalOrder le)
    (ds : List (Quad Term)) (hds : ds.Nodup) (hsub : ∀ q ∈ quads, q ∈ ds) (hsub' : ∀ q ∈ quads', q ∈ ds)
    (hv : v.Sorted) (hv' : v'.Sorted)
    (hends : EndsFresh c.reg v o) (hends' : EndsFresh c.reg v' o') (hapart : (HyCtx.ofTerms c.reg c.xsd le ds).ToldApart)
    (hun : Unambiguous (HyCtx.ofTerms c.reg c.xsd le ds) none ref values)
    (hex : Exact (HyCtx.ofTerms c.reg c.xsd le ds) n none ref values v)
    (hex' : Exact (HyCtx.ofTerms c.reg c.xsd le ds) n' none ref values v') :
    ∃ u, SameTree c.reg ref v u ∧ SameTree c.reg ref v' u := by
  obtain ⟨w, hw, N, hN⟩ := C90_sets c laws hcl hso hgraph hno hbind n v ref o ho quads values h le hle ds hds hsub hv
    hends hapart hun hex
  obtain ⟨w', hw', N', hN'⟩ := C90_sets c laws hcl hso hgraph hno hbind n' v' ref o' ho' quads' values h' le hle ds hds hsub'
    hv' hends' hapart hun hex'
  have := (hN (max N N') (Nat.le_max_left _ _)).symm.trans (hN' (max N N') (Nat.le_max_right _ _))
  injection this with this
  exact ⟨w.untype, hw, this ▸ hw'⟩

/-- **C90** (one tree). What was written determines the tree: if two trees are written with one layout, in any way, to one dataset and
for the same subjects, and nothing is ambiguous in the dataset, nor said for the optional fields they
do not have, then they are equal. -/
theorem C90_one_tree (c : DeCtx) (laws : XsdLaws c.xsd) (hcl : c.reg.Closed) (hso : c.reg.Sorted)
    (hgraph : ∀ ref l, c.reg ref = some l → ∀ f ∈ l.formats, ∀ p, f.graph ≠ some (some p))
    (hno : c.reg.NoVariantIntro) (hbind : ∀ ref l, c.reg ref = some l → l.Binds) (ref : Term)
    (hset : ∀ ref', Reaches c.reg ref ref' → ∀ l, c.reg ref' = some l → l.Settled)
    (n n' : Nat) (v v' : Value) (o o' : DeOptions) (ho : ∀ l, (o.order l).Perm l) (ho' : ∀ l, (o'.order l).Perm l)
    (quads quads' : List (Quad Term)) (values : List Term) (h : dehydrate c n v ref o = .ok (quads, values))
    (h' : dehydrate c n' v' ref o' = .ok (quads', values))
    (le : TypedValue Term → TypedValue Term → Bool) (hle : TotalOrder le)
    (ds : List (Quad Term)) (hds : ds.Nodup) (hsub : ∀ q ∈ quads, q ∈ ds) (hsub' : ∀ q ∈ quads', q ∈ ds)
    (hv : v.Sorted) (hv' : v'.Sorted) (hne : v.NoEmptyList) (hne' : v'.NoEmptyList)
    (hends : EndsFresh c.reg v o) (hends' : EndsFresh c.reg v' o') (hapart : (HyCtx.ofTerms c.reg c.xsd le ds).ToldApart)
    (hun : Unambiguous (HyCtx.ofTerms c.reg c.xsd le ds) none ref values)
    (hab : Absent (HyCtx.ofTerms c.reg c.xsd le ds) none ref values v)
    (hab' : Absent (HyCtx.ofTerms c.reg c.xsd le ds) none ref values v') : v = v' := by
  obtain ⟨u, h1, h2⟩ := C90_one_tree_sets c laws hcl hso hgraph hno hbind ref n n' v v' o o' ho ho' quads quads' values h h' le hle ds
    hds hsub hsub' hv hv' hends hends' hapart hun (exact_absent n hset hne hab) (exact_absent n' hset hne' hab')
  exact (eq_of_sameTree (fun r hr l hl => hset r hr _ hl) h1).trans (eq_of_sameTree (fun r hr l hl => hset r hr _ hl) h2).symm

/-- **C90** (in a graph, with sets). The dataset that was written may be stored in any graph of a larger dataset: if the layouts name no
graph and nothing is ambiguous in this graph, taken alone, and it says nothing but the tree, then the tree is read back from
this graph, up to the order and repetition of the items of sets, whatever the other graphs say. -/
theorem C90_in_graph_sets (c : DeCtx) (laws : XsdLaws c.xsd) (hcl : c.reg.Closed) (hso : c.reg.Sorted)
    (hgraph : ∀ ref l, c.reg ref = some l → ∀ f ∈ l.formats, ∀ p, f.graph ≠ some (some p))
    (hno : c.reg.NoVariantIntro) (hbind : ∀ ref l, c.reg ref = some l → l.Binds)
    (n : Nat) (v : Value) (ref : Term) (o : DeOptions) (ho : ∀ l, (o.order l).Perm l) (quads : List (Quad Term))
    (values : List Term) (h : dehydrate c n v ref o = .ok (quads, values)) (hng : NoGraph c.reg ref)
    (le : TypedValue Term → TypedValue Term → Bool) (hle : TotalOrder le) (g : Option Term)
    (all : List (Quad Term)) (hall : all.Nodup) (hsub : ∀ q ∈ quads, { q with g := g } ∈ all)
    (hv : v.Sorted)
    (hends : EndsFresh c.reg v o) (hapart : (HyCtx.ofTerms c.reg c.xsd le (all.graph g)).ToldApart)
    (hun : Unambiguous (HyCtx.ofTerms c.reg c.xsd le (all.graph g)) none ref values)
    (hex : Exact (HyCtx.ofTerms c.reg c.xsd le (all.graph g)) n none ref values v) :
    ∃ w, SameTree c.reg ref v w.untype ∧ ∃ N, ∀ m, N ≤ m → hydrate (HyCtx.ofTerms c.reg c.xsd le all) m g ref values = .ok w := by
  obtain ⟨w, hw, N, hN⟩ := C90_sets c laws hcl hso hgraph hno hbind n v ref o ho quads values h le hle (all.graph g)
    (graph_nodup hall g)
    (fun q hq => List.mem_map.2 ⟨_, List.mem_filter.2 ⟨hsub q hq, by simp⟩, by
      have := dataset_plain hng ho h q hq
      cases q
      simpa using this.symm⟩) hv hends hapart hun hex
  refine ⟨w, hw, N, fun m hm => ?_⟩
  rw [C87_graph_alone _ g ref hng]
  exact hN m hm

/-- **C90** (in a graph). The dataset that was written may be stored in any graph of a larger dataset: if the layouts name no graph
and nothing is ambiguous in this graph, taken alone, nor said for optional fields that the tree does not
have, then the tree is read back from this graph, whatever the other graphs say. -/
theorem C90_in_graph (c : DeCtx) (laws : XsdLaws c.xsd) (hcl : c.reg.Closed) (hso : c.reg.Sorted)
    (hgraph : ∀ ref l, c.reg ref = some l → ∀ f ∈ l.formats, ∀ p, f.graph ≠ some (some p))
    (hno : c.reg.NoVariantIntro) (hbind : ∀ ref l, c.reg ref = some l → l.Binds)
    (n : Nat) (v : Value) (ref : Term) (o : DeOptions) (ho : ∀ l, (o.order l).Perm l) (quads : List (Quad Term))
    (values : List Term) (h : dehydrate c n v ref o = .ok (quads, values)) (hng : NoGraph c.reg ref)
    (le : TypedValue Term → TypedValue Term → Bool) (hle : TotalOrder le) (g : Option Term)
    (all : List (Quad Term)) (hall : all.Nodup) (hsub : ∀ q ∈ quads, { q with g := g } ∈ all)
    (hset : ∀ ref', Reaches c.reg ref ref' → ∀ l, c.reg ref' = some l → l.Settled) (hv : v.Sorted) (hne : v.NoEmptyList)
    (hends : EndsFresh c.reg v o) (hapart : (HyCtx.ofTerms c.reg c.xsd le (all.graph g)).ToldApart)
    (hun : Unambiguous (HyCtx.ofTerms c.reg c.xsd le (all.graph g)) none ref values)
    (hab : Absent (HyCtx.ofTerms c.reg c.xsd le (all.graph g)) none ref values v) :
    ∃ w, w.untype = v ∧ ∃ N, ∀ m, N ≤ m → hydrate (HyCtx.ofTerms c.reg c.xsd le all) m g ref values = .ok w := by
  obtain ⟨w, hw, hN⟩ := C90_in_graph_sets c laws hcl hso hgraph hno hbind n v ref o ho quads values h hng le hle g all hall hsub hv hends
    hapart hun (exact_absent n hset hne hab)
  exact ⟨w, (eq_of_sameTree (fun r hr l hl => hset r hr _ hl) hw).symm, hN⟩

/-! ## Examples -/

namespace RgExample

open KeptExample ReadBackExamples

/-- The offers of C90, with all that is said about them, in a graph. The default graph says, among other things, that there is
another offer, which would make the data ambiguous if it were in the same graph. -/
def all : List (Quad Term) := Witness.twoOffers ++ dataset.putIn (.iri "g")

theorem all_graph : all.graph (some (.iri "g")) = dataset := by decide +kernel

example : ∃ w, w.untype = tree ∧ ∃ N, ∀ m, N ≤ m → hydrate (HyCtx.ofTerms reg Example.xsd ReproduceExample.le all) m
    (some (.iri "g")) (.iri "offer") [.blank "input0", .blank "input"] = .ok w := by
  refine C90_in_graph ctx Example.xsd_laws reg_closed reg_sorted reg_graph reg_noIntro reg_binds
    4 tree (.iri "offer") DeExample.opts (fun _ => .refl _) quads _ write ?_ ReproduceExample.le ReproduceExample.le_total
    (some (.iri "g")) all (by decide +kernel) (by decide +kernel) (fun ref _ l hl => settled_fixed (reg_fixed ref l hl)) tree_sorted
    tree_noEmptyList KeptExamples.ends_fresh ?_ ?_ (absent_fixed fun ref _ l hl => reg_fixed ref l hl)
  · refine fun ref' _ => reg_cases ?_ ?_ ?_ ?_ ref' <;>
      simp [offer, DeExample.text, DeExample.number, DeExample.rdfList, Layout.patterns, Layout.formats, DeExample.q, DeExample.val]
  · intro ref l hl
    exact absurd rfl (reg_cases (P := fun l => ∀ p, l ≠ .sum p) (by simp) (by simp) (by simp) (by simp) ref _ hl l)
  · rw [all_graph]
    refine unambiguous_follows reg_wellTyped reg_follows ?_
    intro l k hl hk
    have : l = .product offer := by
      have h : reg (.iri "offer") = some l := hl
      simp only [reg, Option.some.injEq] at h
      exact h.symm
    subst this
    simpa [Layout.inputCount, offer] using hk

end RgExample

namespace RcExample

open CoExample (ex)

/-- An offer, from one input to another: `{ "type": "record", "input": ["from", "to"], "intro": "offer", "dataset":
[["_:from", "ex:offers", "_:offer"], ["_:offer", "ex:to", "_:to"]], "fields": { "price": … } }`. -/
def offerDoc : Json :=
  .object [("type", .string "record"), ("id", .string "https://example.org/Offer"),
    ("prefixes", .object [("ex", .string "https://example.org/")]),
    ("input", .array [.string "from", .string "to"]), ("intro", .string "offer"),
    ("dataset", .array [.array [.string "_:from", .string "ex:offers", .string "_:offer"],
      .array [.string "_:offer", .string "ex:to", .string "_:to"]]),
    ("fields", .object [("price", .object [("required", .boolean true), ("value", .object [("type", .string "string")]),
      ("dataset", .array [.array [.string "_:offer", .string "ex:price", .string "_:value"]])])])]

/-- Its definition. -/
def offer : SLayout :=
  .product {
      id := some "https://example.org/Offer", prefixes := [("ex", "https://example.org/")], input := .many ["from", "to"],
      intro := .one "offer",
      dataset := [⟨.var "from", .iri "ex:offers", .var "offer", none⟩, ⟨.var "offer", .iri "ex:to", .var "to", none⟩] }
    [(.text "price", .mk (.one "value") (.layout (.layout (.textString {} none none none)))
      [⟨.var "offer", .iri "ex:price", .var "value", none⟩] none true)]

set_option maxRecDepth 10000 in
theorem parse_offer : parseLayout SpExample.lib offerDoc = .ok offer := by rfl

def built : Builder Term := (offer.buildWithContext SyExample.ctx ⟨[], 0⟩).2

/-- The compiled layouts. -/
def layouts : List (Term × Layout Term × List (Term × Term)) :=
  [(.blank "", .textString {
      input := 1, intro := 0, dataset := [], resource := .var 0, datatype := .iri "http://www.w3.org/2001/XMLSchema#string",
      pattern := none }, []),
    (ex "Offer", .product {
      input := 2, intro := 1,
      dataset := [⟨.var 0, .res (ex "offers"), .var 2, none⟩, ⟨.var 2, .res (ex "to"), .var 1, none⟩],
      fields := [(.text "price", ⟨1, ⟨.blank "", [.var 3], none⟩, [⟨.var 2, .res (ex "price"), .var 3, none⟩], true⟩)] }, [])]

def reg : Registry Term := Builder.registry layouts

/-- The command line tool. -/
noncomputable def env : FormatEnv Rat where
  load := ⟨SpExample.lib, SyExample.ctx, false, 0⟩
  prelude := preludeRegistry Term.iri
  xsd := CcExample.xsd
  isIri := CoExample.isIri
  le := ReproduceExample.le
  options := .default id
  depth := 4
  toF64 := id
  ofF64 := some
  collect := id

/-- `tldr -l offer.json --no-prelude`. -/
def args : CliArgs := ⟨[.json offerDoc], [], true⟩

theorem loaded : loadFiles env.load args = .ok (layouts, .some (ex "Offer")) := by
  have h : (loadDocument env.load 0 0 offerDoc) = .ok (ex "Offer", layouts, built.next) := by
    have h1 : parseLayout env.load.parse offerDoc = .ok offer := parse_offer
    have h2 : offer.buildWithContext env.load.ctx ⟨[], 0⟩ = (.ok (ex "Offer"), built) := by
      have h : (offer.buildWithContext SyExample.ctx ⟨[], 0⟩).1 = .ok (ex "Offer") := by decide +kernel
      exact Prod.ext h rfl
    have h3 : buildAll env.load.debug env.load.fuel built.layouts = .ok layouts := by decide +kernel
    simp only [loadDocument, h1, Out.mapErr, Out.bind, h2, h3, Out.ofTotal]
  have h' : insertLayouts env.load.ctx.le layouts [] = .ok layouts := by decide +kernel
  simp only [loadFiles, args, loadLayouts, loadLayout, h, h', loadIncludes, Out.bind, Out.mapErr, DefaultLayout.set]

theorem registry_eq : env.registry args layouts = reg := by
  simp only [FormatEnv.registry, args, if_true]
  rw [C36_absent]
  rfl

theorem reg_cases {P : Layout Term → Prop} (h1 : ∀ e ∈ layouts, P e.2.1) : ∀ r l, reg r = some l → P l := by
  intro r l h
  obtain ⟨x, hx, hl⟩ := Option.map_eq_some_iff.1 (show (layouts.lookup r).map (·.1) = some l from h)
  exact hl ▸ h1 _ (mem_of_lookup' hx)

theorem oneInput : args.OneInput env.load := by
  intro j hj l hl l' env' hs
  have hj : SourceFile.json j = .json offerDoc := by simpa [args] using hj
  cases hj
  cases hl.symm.trans parse_offer
  have : l' = offer ∨ l' = .textString {} none none none := by
    induction hs with
    | refl => exact .inl rfl
    | nested _ h1 h2 h3 ih =>
      right
      rcases ih with rfl | rfl <;> simp [SLayout.refs, offer, SField.ref, SFormat.ref] at h3
      exact h3
  rcases this with rfl | rfl
  · trivial
  · rfl

/-- `{ "price": "10 EUR" }`. -/
def doc : Json := .object [("price", .string "10 EUR")]

def tree : Value := .map [(.text "price", .text "10 EUR")]

def input : Input Rat := ⟨none, some doc, none⟩

/-- What is written. -/
def quads : List (Quad Term) :=
  [⟨.blank "input0", ex "offers", .blank "0", none⟩, ⟨.blank "0", ex "to", .blank "input1", none⟩,
    ⟨.blank "0", ex "price", .literal ⟨"10 EUR", .any "http://www.w3.org/2001/XMLSchema#string"⟩, none⟩]

/-- What is read: there is another offer in the dataset. -/
def data : List (Quad Term) :=
  ⟨.blank "input1", ex "offers", .blank "9", none⟩ :: quads ++ [⟨.blank "9", ex "to", .blank "input1", none⟩]

def input' : Input Rat := ⟨some data, none, none⟩

theorem written : Dehydrate.dehydrate ⟨reg, env.isIri, env.xsd⟩ env.depth tree (ex "Offer") env.options =
    .ok (quads, [.blank "input0", .blank "input1"]) := by decide +kernel

/-- `tldr -l offer.json --no-prelude dehydrate`. -/
theorem printed : runCli env args (some (.dehydrate .json .nQuads none)) input = .ok (some (.nQuads quads)) := by
  have h1 : doc.toValue = .ok tree := by decide +kernel
  have h2 := written
  rw [← registry_eq] at h2
  simp only [runCli, loaded, Out.bind_ok, Command.run, DefaultLayout.get, TreeFormat.load, input, h1, Out.ofTotal, h2, Out.mapErr,
    RdfFormat.write]

theorem wellTyped : reg.WellTyped := by
  refine reg_cases ?_
  simp only [layouts, List.mem_cons, List.not_mem_nil, or_false, forall_eq_or_imp, forall_eq]
  refine ⟨by simp [Layout.formats], ?_⟩
  simp only [Layout.formats, List.map_cons, List.map_nil, List.mem_cons, List.not_mem_nil, or_false, forall_eq]
  exact ⟨_, rfl, fun k hk => by simpa [Layout.inputCount] using hk⟩

theorem fixed : ∀ r, Reaches reg (ex "Offer") r → ∀ l, reg r = some l → l.Fixed :=
  fun r _ l hl => reg_cases (P := Layout.Fixed) (by simp [layouts, Layout.Fixed]) r l hl

theorem noSum (r : Term) (l : Layout Term) (h : reg r = some l) : ∀ p, l ≠ .sum p :=
  reg_cases (P := fun l => ∀ p, l ≠ .sum p) (by simp [layouts]) r l h

theorem noList (r : Term) (l : Layout Term) (h : reg r = some l) : ∀ p, l ≠ .ordered p :=
  reg_cases (P := fun l => ∀ p, l ≠ .ordered p) (by simp [layouts]) r l h

theorem noEnds (t : Term) : ¬ reg.EndsLists t := fun ⟨r, l, h, _⟩ => noList r _ h l rfl

theorem follows : ∀ r l, reg r = some l → l.Follows (SingleValued data.dedup) := by
  refine reg_cases ?_
  simp only [layouts, List.mem_cons, List.not_mem_nil, or_false, forall_eq_or_imp, forall_eq]
  refine ⟨⟨trivial, trivial⟩, ⟨?_, ?_, .inr ⟨_, rfl, ?_⟩, ?_, ?_, .inl ⟨?_, ?_⟩, trivial⟩, ?_⟩
  case refine_3 => unfold SingleValued; decide +kernel
  case refine_8 =>
    simp only [List.mem_cons, List.not_mem_nil, or_false, forall_eq]
    refine ⟨?_, ?_, .inr ⟨_, rfl, ?_⟩, trivial⟩
    case refine_3 => unfold SingleValued; decide +kernel
    all_goals simp [boundVars, Pattern.BoundIn, patsVars, QuadPat.vars, Pattern.vars]
  all_goals simp [Layout.inputCount, Pattern.BoundIn, Pattern.vars]

end RcExample

-- The offer is read back from the dataset with another offer.
example : ∃ j', j'.toValue = .ok RcExample.tree ∧ ∃ N, ∀ n, N ≤ n →
    runCli { RcExample.env with depth := n } RcExample.args (some (.hydrate .nQuads .json none [.blank "input0", .blank "input1"]))
      RcExample.input' = .ok (some (.json j')) := by
  obtain ⟨reg, d, ref, v, values, h1, h2, h3, h4, h5⟩ := C92_tool RcExample.env rfl ⟨CoExample.xsd_laws.bool, CoExample.xsd_laws.decimal⟩
    ReproduceExample.le_total (fun _ => .refl _) RcExample.args RcExample.oneInput none RcExample.input RcExample.doc rfl
    RcExample.quads RcExample.printed
  have hp := prepare_of_loadFiles RcExample.env RcExample.args _ _ RcExample.loaded
  rw [RcExample.registry_eq] at hp
  cases h1.symm.trans hp
  cases h2
  have hv : v = RcExample.tree := by
    have : RcExample.doc.toValue = .ok RcExample.tree := by decide +kernel
    rw [h3] at this
    injection this
  subst hv
  have h6 := h4.symm.trans RcExample.written
  injection h6 with h6
  injection h6 with _ h6
  subst h6
  refine h5 ?_ ?_ ?_ ?_ ?_ ?_ ?_ RcExample.input' RcExample.data rfl (by decide +kernel) ?_ ?_ (absent_fixed RcExample.fixed)
  · refine RcExample.reg_cases ?_
    simp [RcExample.layouts, Layout.formats]
  · intro r l h
    exact absurd rfl (RcExample.noSum r _ h l)
  · refine RcExample.reg_cases ?_
    simp [RcExample.layouts, Layout.Binds, ValueFormat.BoundIn, Pattern.BoundIn, boundVars, patsVars, QuadPat.vars, Pattern.vars]
  · exact fun r hr l hl => settled_fixed (RcExample.fixed r hr l hl)
  · refine .map _ ?_ ?_ <;> simp only [List.mem_cons, List.not_mem_nil, or_false, forall_eq]
    · exact .textString _
    · exact .textString _
  · refine .map _ ?_
    simp only [List.mem_cons, List.not_mem_nil, or_false, forall_eq]
    exact .literal _
  · exact ⟨⟨fun r l h => absurd rfl (RcExample.noList r _ h l), fun r l h => absurd rfl (RcExample.noList r _ h l),
      fun _ _ _ _ _ t h => absurd h (RcExample.noEnds t), fun r l h => absurd rfl (RcExample.noList r _ h l)⟩, fun t h => absurd h (RcExample.noEnds t),
      fun t h => absurd h (RcExample.noEnds t), fun t h => absurd h (RcExample.noEnds t)⟩
  · intro r l h
    exact absurd rfl (RcExample.noSum r _ h l)
  · refine unambiguous_follows RcExample.wellTyped RcExample.follows ?_
    intro l k hl hk
    have : RcExample.reg (CoExample.ex "Offer") = some l := hl
    cases this
    simpa [Layout.inputCount] using hk

end Verif.Props
