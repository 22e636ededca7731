import Verif.Props.Combine
import Verif.Props.ReadSets

/-!
# Documents about the same subjects (C84), for layouts with any patterns and any number of inputs, in any graph
-/

set_option linter.unusedSectionVars false
set_option linter.unusedSimpArgs false

namespace Verif.Props

open Hydrate Dehydrate Keeping

/-- Trees that are read with record layouts from the same resources are read together with the layout that has the fields of all of
them. -/
theorem joined_reads {R D : Type} [DecidableEq R] (c : HyCtx R) (hreg : c.reg.Closed) (hds : c.ds.Nodup) (g : Option R)
    (inputs : List R) (docs : List D) (layout : D → R) (P : D → Value → Prop)
    (hback : ∀ d ∈ docs, ∃ w, P d w.untype ∧ ∃ N, ∀ k, N ≤ k → hydrate c k g (layout d) inputs = .ok w)
    (ref : R) (l : ProductLayout R) (hj : c.reg.Joins ref l (docs.map layout)) :
    ∃ m N, (∀ k, N ≤ k → hydrate c k g ref inputs = .ok (.map m ref)) ∧
      ∃ read : D → List (Value × TypedValue R), (∀ d ∈ docs, P d (.map (TypedValue.untypeMap (read d)))) ∧
        ∀ key v, (key, v) ∈ m ↔ ∃ d ∈ docs, (key, v) ∈ read d := by
  obtain ⟨K, hK⟩ : ∃ K, ∀ d ∈ docs, ∃ w, P d w.untype ∧ ∀ k, K ≤ k → hydrate c k g (layout d) inputs = .ok w := by
    clear hj
    induction docs with
    | nil => exact ⟨0, by simp⟩
    | cons d docs ih =>
      obtain ⟨K, hK⟩ := ih fun e he => hback e (List.mem_cons_of_mem _ he)
      obtain ⟨w, hs, N, hN⟩ := hback d (by simp)
      refine ⟨max N K, fun e he => ?_⟩
      rcases List.mem_cons.1 he with rfl | he
      · exact ⟨w, hs, fun k hk => hN k (by omega)⟩
      · obtain ⟨w, hs, hw⟩ := hK e he
        exact ⟨w, hs, fun k hk => hw k (by omega)⟩
  obtain ⟨w, hw⟩ := (C83_join c hreg hds hj K g inputs).2 (by
    intro r hr
    obtain ⟨d, hd, rfl⟩ := List.mem_map.1 hr
    obtain ⟨w, -, hw⟩ := hK d hd
    exact ⟨w, hw K (Nat.le_refl _)⟩)
  obtain ⟨m, rfl, hm⟩ := C83_members c hreg hds hj K g inputs w hw
  -- what is read with a record layout is a record
  have hmap : ∀ d ∈ docs, ∀ w, hydrate c K g (layout d) inputs = .ok w → ∃ m', w = .map m' (layout d) := by
    intro d hd w hw
    obtain ⟨l', hl', -⟩ := hj.records (layout d) (List.mem_map.2 ⟨d, hd, rfl⟩)
    cases K with
    | zero => simp [hydrate] at hw
    | succ K =>
      obtain ⟨-, m', -, -, e, -⟩ := product_ok_iff c hds hl' (hreg _ _ hl') K inputs w hw
      exact ⟨m', e⟩
  refine ⟨m, K, fun k hk => ?_, fun d => match hydrate c K g (layout d) inputs with
    | .ok (.map m' _) => m'
    | _ => [], fun d hd => ?_, fun key v => ?_⟩
  · exact ((hydrate_mono _ K k hk g ref inputs).eq_of_ne (by rw [hw]; simp)).trans hw
  · obtain ⟨w, hs, hw'⟩ := hK d hd
    have hw' := hw' K (Nat.le_refl _)
    obtain ⟨m', rfl⟩ := hmap d hd w hw'
    beta_reduce
    rw [hw']
    exact hs
  · rw [hm]
    constructor
    · rintro ⟨r, hr, m', h1, h2⟩
      obtain ⟨d, hd, rfl⟩ := List.mem_map.1 hr
      exact ⟨d, hd, by beta_reduce; rw [h1]; exact h2⟩
    · rintro ⟨d, hd, h1⟩
      refine ⟨layout d, List.mem_map.2 ⟨d, hd, rfl⟩, ?_⟩
      beta_reduce at h1
      obtain ⟨w, -, hw'⟩ := hK d hd
      have hw' := hw' K (Nat.le_refl _)
      obtain ⟨m', rfl⟩ := hmap d hd w hw'
      rw [hw'] at h1
      exact ⟨m', hw', h1⟩

/-- The document was written from the context `c`, for the given subjects. -/
structure WrittenFor (c : DeCtx) (subjects : List Term) (d : Document) : Prop where
  written : dehydrate c d.depth d.tree d.layout d.options = .ok (d.dataset, subjects)
  order : ∀ l, (d.options.order l).Perm l
  tree : d.tree.Sorted
  ends : EndsFresh c.reg d.tree d.options

/-- **C84** (any layouts). Trees are written on their own, with record layouts, about the same subjects: any number of them, and the
layouts may have any patterns. They are put together, with anything else. If the whole leaves no choice to the layouts of each tree,
and says nothing else for it, then a record layout that has the fields of all of them reads from the whole a record with the members
of all the trees, and nothing else. -/
theorem C84_any_layouts (c : DeCtx) (laws : XsdLaws c.xsd) (hcl : c.reg.Closed) (hso : c.reg.Sorted)
    (hgraph : ∀ ref l, c.reg ref = some l → ∀ f ∈ l.formats, ∀ p, f.graph ≠ some (some p))
    (hno : c.reg.NoVariantIntro) (hbind : ∀ ref l, c.reg ref = some l → l.Binds)
    (subjects : List Term) (docs : List Document) (hd : ∀ d ∈ docs, WrittenFor c subjects d)
    (le : TypedValue Term → TypedValue Term → Bool) (hle : TotalOrder le)
    (all : List (Quad Term)) (hall : all.Nodup) (hcontains : ∀ d ∈ docs, ∀ q ∈ d.dataset, q ∈ all)
    (hapart : (HyCtx.ofTerms c.reg c.xsd le all).ToldApart)
    (hun : ∀ d ∈ docs, Unambiguous (HyCtx.ofTerms c.reg c.xsd le all) none d.layout subjects)
    (hex : ∀ d ∈ docs, Exact (HyCtx.ofTerms c.reg c.xsd le all) d.depth none d.layout subjects d.tree)
    (ref : Term) (l : ProductLayout Term) (hj : c.reg.Joins ref l (docs.map Document.layout)) :
    ∃ m N, (∀ k, N ≤ k → hydrate (HyCtx.ofTerms c.reg c.xsd le all) k none ref subjects = .ok (.map m ref)) ∧
      ∃ read : Document → List (Value × TypedValue Term),
        (∀ d ∈ docs, SameTree c.reg d.layout d.tree (.map (TypedValue.untypeMap (read d)))) ∧
        ∀ key v, (key, v) ∈ m ↔ ∃ d ∈ docs, (key, v) ∈ read d :=
  joined_reads (HyCtx.ofTerms c.reg c.xsd le all) hcl hall none subjects docs Document.layout
    (fun d v => SameTree c.reg d.layout d.tree v)
    (fun d h => C90_sets c laws hcl hso hgraph hno hbind d.depth d.tree d.layout d.options (hd d h).order d.dataset subjects
      (hd d h).written le hle all hall (hcontains d h) (hd d h).tree (hd d h).ends hapart (hun d h) (hex d h))
    ref l hj

/-- **C84** (any layouts, in a graph). The same when all the trees are stored in one graph of a larger dataset, whatever its other
graphs say. -/
theorem C84_any_graph (c : DeCtx) (laws : XsdLaws c.xsd) (hcl : c.reg.Closed) (hso : c.reg.Sorted)
    (hgraph : ∀ ref l, c.reg ref = some l → ∀ f ∈ l.formats, ∀ p, f.graph ≠ some (some p))
    (hno : c.reg.NoVariantIntro) (hbind : ∀ ref l, c.reg ref = some l → l.Binds)
    (subjects : List Term) (docs : List Document) (hd : ∀ d ∈ docs, WrittenFor c subjects d)
    (hng : ∀ d ∈ docs, NoGraph c.reg d.layout)
    (le : TypedValue Term → TypedValue Term → Bool) (hle : TotalOrder le) (g : Option Term)
    (all : List (Quad Term)) (hall : all.Nodup) (hcontains : ∀ d ∈ docs, ∀ q ∈ d.dataset, { q with g := g } ∈ all)
    (hapart : (HyCtx.ofTerms c.reg c.xsd le (all.graph g)).ToldApart)
    (hun : ∀ d ∈ docs, Unambiguous (HyCtx.ofTerms c.reg c.xsd le (all.graph g)) none d.layout subjects)
    (hex : ∀ d ∈ docs, Exact (HyCtx.ofTerms c.reg c.xsd le (all.graph g)) d.depth none d.layout subjects d.tree)
    (ref : Term) (l : ProductLayout Term) (hj : c.reg.Joins ref l (docs.map Document.layout)) :
    ∃ m N, (∀ k, N ≤ k → hydrate (HyCtx.ofTerms c.reg c.xsd le all) k g ref subjects = .ok (.map m ref)) ∧
      ∃ read : Document → List (Value × TypedValue Term),
        (∀ d ∈ docs, SameTree c.reg d.layout d.tree (.map (TypedValue.untypeMap (read d)))) ∧
        ∀ key v, (key, v) ∈ m ↔ ∃ d ∈ docs, (key, v) ∈ read d :=
  joined_reads (HyCtx.ofTerms c.reg c.xsd le all) hcl hall g subjects docs Document.layout
    (fun d v => SameTree c.reg d.layout d.tree v)
    (fun d h => C90_in_graph_sets c laws hcl hso hgraph hno hbind d.depth d.tree d.layout d.options (hd d h).order d.dataset subjects
      (hd d h).written (hng d h) le hle g all hall (hcontains d h) (hd d h).tree (hd d h).ends hapart (hun d h) (hex d h))
    ref l hj

/-! ## A seller and a buyer -/

namespace DealExample

open DeExample (q val c)

/-- The side of the seller, who is the first input: a name. -/
def sale : ProductLayout Term :=
  { input := 2, intro := 0,
    fields := [(.text "shop", { intro := 1, value := val "text" 2, dataset := [q (.var 0) (c "name") (.var 2)], required := true })],
    dataset := [q (.var 0) (c "sells") (.var 1)] }

/-- The side of the buyer, who is the second input: an address. -/
def purchase : ProductLayout Term :=
  { input := 2, intro := 0,
    fields := [(.text "address", { intro := 1, value := val "text" 2, dataset := [q (.var 1) (c "address") (.var 2)], required := true })],
    dataset := [q (.var 1) (c "buys") (.var 0)] }

/-- Both sides. -/
def deal : ProductLayout Term :=
  { input := 2, intro := 0, fields := purchase.fields ++ sale.fields, dataset := sale.dataset ++ purchase.dataset }

/-- The registry. -/
def reg : Registry Term
  | .iri "sale" => some (.product sale)
  | .iri "purchase" => some (.product purchase)
  | .iri "deal" => some (.product deal)
  | .iri "text" => some (.textString DeExample.text)
  | _ => none

/-- The context. -/
def ctx : DeCtx := { reg, isIri := fun _ => true, xsd := Example.xsd }

/-- A text. -/
def str (s : String) : Term := .literal ⟨s, .any "xsd:string"⟩

/-- The subjects. -/
def subjects : List Term := [.blank "input0", .blank "input"]

/-- The first document. -/
def saleDoc : Document := ⟨ctx, DeExample.opts, .iri "sale", 4, .map [(.text "shop", .text "Books")],
  [⟨.blank "input0", .iri "sells", .blank "input", none⟩, ⟨.blank "input0", .iri "name", str "Books", none⟩], subjects⟩

/-- The second document. -/
def purchaseDoc : Document := ⟨ctx, DeExample.opts, .iri "purchase", 4, .map [(.text "address", .text "12 High Street")],
  [⟨.blank "input", .iri "buys", .blank "input0", none⟩, ⟨.blank "input", .iri "address", str "12 High Street", none⟩], subjects⟩

/-- What is read: both documents, and the name of the buyer. -/
def dataset : List (Quad Term) :=
  saleDoc.dataset ++ purchaseDoc.dataset ++ [⟨.blank "input", .iri "name", str "Alice", none⟩]

/-- How it is read. -/
abbrev hy : HyCtx Term := HyCtx.ofTerms reg Example.xsd ReproduceExample.le dataset

theorem reg_cases {P : Layout Term → Prop} (h1 : P (.product sale)) (h2 : P (.product purchase)) (h3 : P (.product deal))
    (h4 : P (.textString DeExample.text)) : ∀ ref l, reg ref = some l → P l := by
  intro ref l h
  unfold reg at h
  split at h <;> simp only [Option.some.injEq, reduceCtorEq] at h <;> subst h <;> assumption

theorem noSum (ref : Term) (l : SumLayout Term) : reg ref ≠ some (.sum l) :=
  fun h => reg_cases (P := fun l => ∀ p, l ≠ .sum p) (by simp) (by simp) (by simp) (by simp) ref _ h l rfl

theorem noList (ref : Term) (l : OrderedLayout Term) : reg ref ≠ some (.ordered l) :=
  fun h => reg_cases (P := fun l => ∀ p, l ≠ .ordered p) (by simp) (by simp) (by simp) (by simp) ref _ h l rfl

theorem noEnds (t : Term) : ¬ reg.EndsLists t := fun ⟨r, l, h, _⟩ => noList r l h

theorem closed : reg.Closed := by
  unfold Registry.Closed
  refine reg_cases ?_ ?_ ?_ ?_ <;>
    simp [sale, purchase, deal, DeExample.text, Layout.Closed, PatsBelow, patsVars,
      QuadPat.vars, Pattern.vars, ValueFormat.Below, Pattern.Below, q, val, c]

theorem sorted : reg.Sorted := by
  intro ref l h
  exact reg_cases (P := fun l => ∀ p, l = .product p → SortedKeys p.fields)
    (by rintro p ⟨⟩; unfold SortedKeys; decide +kernel) (by rintro p ⟨⟩; unfold SortedKeys; decide +kernel)
    (by rintro p ⟨⟩; unfold SortedKeys; decide +kernel) (by simp) ref _ h l rfl

theorem wellTyped : reg.WellTyped := by
  unfold Registry.WellTyped
  refine reg_cases ?_ ?_ ?_ ?_ <;>
    simp [sale, purchase, deal, DeExample.text, Layout.formats, val, reg, Layout.inputCount]

theorem graph : ∀ ref l, reg ref = some l → ∀ f ∈ l.formats, ∀ p, f.graph ≠ some (some p) := by
  refine reg_cases ?_ ?_ ?_ ?_ <;> simp [sale, purchase, deal, DeExample.text, Layout.formats, val]

theorem binds : ∀ ref l, reg ref = some l → l.Binds := by
  refine reg_cases ?_ ?_ ?_ ?_ <;>
    simp [sale, purchase, deal, DeExample.text, Layout.Binds, ValueFormat.BoundIn, Pattern.BoundIn, boundVars,
      patsVars, QuadPat.vars, Pattern.vars, q, val, c]

theorem fixed : ∀ ref l, reg ref = some l → l.Fixed := by
  refine reg_cases ?_ ?_ ?_ ?_ <;> simp [sale, purchase, deal, DeExample.text, Layout.Fixed]

theorem follows : ∀ ref l, reg ref = some l → l.Follows (SingleValued dataset) := by
  have h1 : Verif.Follows (SingleValued dataset) (fun x => ∃ k, some 2 = some k ∧ x < k) sale.dataset := by
    refine ⟨?_, ?_, .inl ⟨?_, ?_⟩, trivial⟩ <;> simp [Pattern.BoundIn, Pattern.vars, q, c]
  have h2 : Verif.Follows (SingleValued dataset) (fun x => ∃ k, some 2 = some k ∧ x < k) purchase.dataset := by
    refine ⟨?_, ?_, .inl ⟨?_, ?_⟩, trivial⟩ <;> simp [Pattern.BoundIn, Pattern.vars, q, c]
  have h3 : Verif.Follows (SingleValued dataset) (fun x => ∃ k, some 2 = some k ∧ x < k) deal.dataset := by
    refine ⟨?_, ?_, .inl ⟨?_, ?_⟩, ?_, ?_, .inl ⟨?_, ?_⟩, trivial⟩ <;> simp [Pattern.BoundIn, q, c, Pattern.vars]
  have h4 : ∀ {pats : List (QuadPat Term)}, ∀ e ∈ sale.fields, Verif.Follows (SingleValued dataset) (boundVars 2 pats) e.2.dataset := by
    intro pats e he
    simp only [sale, List.mem_cons, List.not_mem_nil, or_false] at he
    subst he
    refine ⟨?_, ?_, .inr ⟨_, rfl, ?_⟩, trivial⟩
    case refine_3 => unfold SingleValued; decide +kernel
    all_goals simp [boundVars, Pattern.BoundIn, Pattern.vars, q, c]
  have h5 : ∀ {pats : List (QuadPat Term)}, ∀ e ∈ purchase.fields, Verif.Follows (SingleValued dataset) (boundVars 2 pats) e.2.dataset := by
    intro pats e he
    simp only [purchase, List.mem_cons, List.not_mem_nil, or_false] at he
    subst he
    refine ⟨?_, ?_, .inr ⟨_, rfl, ?_⟩, trivial⟩
    case refine_3 => unfold SingleValued; decide +kernel
    all_goals simp [boundVars, Pattern.BoundIn, Pattern.vars, q, c]
  refine reg_cases ⟨h1, h4⟩ ⟨h2, h5⟩ ⟨h3, fun e he => ?_⟩ ⟨trivial, trivial⟩
  rcases List.mem_append.1 he with he | he
  · exact h5 e he
  · exact h4 e he

theorem endsFresh (v : Value) : EndsFresh reg v DeExample.opts :=
  ⟨⟨fun r l h => absurd h (noList r l), fun r l h => absurd h (noList r l), fun _ _ _ _ _ t h => absurd h (noEnds t),
    fun r l h => absurd h (noList r l)⟩, fun t h => absurd h (noEnds t), fun t h => absurd h (noEnds t),
    fun t h => absurd h (noEnds t)⟩

theorem written : ∀ d ∈ [saleDoc, purchaseDoc], WrittenFor ctx subjects d := by
  simp only [List.mem_cons, List.not_mem_nil, or_false, forall_eq_or_imp, forall_eq]
  refine ⟨⟨by decide +kernel, fun _ => .refl _, ?_, endsFresh _⟩, ⟨by decide +kernel, fun _ => .refl _, ?_, endsFresh _⟩⟩
  all_goals
    refine .map _ (by unfold SortedKeys; decide +kernel) ?_
    simp only [List.mem_cons, List.not_mem_nil, or_false, forall_eq]
    exact .literal _

theorem unambiguous : ∀ d ∈ [saleDoc, purchaseDoc], Unambiguous hy none d.layout subjects := by
  simp only [List.mem_cons, List.not_mem_nil, or_false, forall_eq_or_imp, forall_eq]
  constructor
  · refine unambiguous_follows wellTyped follows ?_
    intro l k hl hk
    obtain rfl : l = .product sale := Option.some.inj hl.symm
    simpa [Layout.inputCount, sale, subjects] using hk
  · refine unambiguous_follows wellTyped follows ?_
    intro l k hl hk
    obtain rfl : l = .product purchase := Option.some.inj hl.symm
    simpa [Layout.inputCount, purchase, subjects] using hk

theorem exact : ∀ d ∈ [saleDoc, purchaseDoc], Exact hy d.depth none d.layout subjects d.tree := by
  intro d hd
  refine exact_absent _ (fun r _ l h => settled_fixed (fixed r l h)) ?_ (absent_fixed fun r _ l h => fixed r l h)
  simp only [List.mem_cons, List.not_mem_nil, or_false] at hd
  rcases hd with rfl | rfl
  all_goals
    refine .map _ ?_
    simp only [List.mem_cons, List.not_mem_nil, or_false, forall_eq]
    exact .literal _

theorem joins : reg.Joins (.iri "deal") deal ([saleDoc, purchaseDoc].map Document.layout) where
  layout := rfl
  nonempty := by simp
  records := by
    simp only [List.map_cons, List.map_nil, List.mem_cons, List.not_mem_nil, or_false, forall_eq_or_imp, forall_eq]
    exact ⟨⟨sale, rfl, rfl, rfl⟩, ⟨purchase, rfl, rfl, rfl⟩⟩
  intro := rfl
  dataset q := by
    simp [saleDoc, purchaseDoc, reg, deal]
  fields e := by
    simp [saleDoc, purchaseDoc, reg, deal, or_comm]

theorem contains : ∀ d ∈ [saleDoc, purchaseDoc], ∀ q ∈ d.dataset, q ∈ dataset := by
  simp only [List.mem_cons, List.not_mem_nil, or_false, forall_eq_or_imp, forall_eq]
  exact ⟨by decide +kernel, by decide +kernel⟩

example := C84_any_layouts ctx Example.xsd_laws closed sorted graph (fun ref l h => absurd h (noSum ref l)) binds subjects
  [saleDoc, purchaseDoc] written ReproduceExample.le ReproduceExample.le_total dataset (by decide +kernel) contains
  (fun ref l h => absurd h (noSum ref l)) unambiguous exact (.iri "deal") deal joins

/-- Both documents in a graph; the default graph has another address. -/
def stored : List (Quad Term) := [⟨.blank "input", .iri "address", str "1 Low Street", none⟩] ++ dataset.putIn (.iri "g")

theorem stored_graph : stored.graph (some (.iri "g")) = dataset := by decide +kernel

example := C84_any_graph ctx Example.xsd_laws closed sorted graph (fun ref l h => absurd h (noSum ref l)) binds subjects
  [saleDoc, purchaseDoc] written
  (fun d _ ref' _ => by
    refine reg_cases ?_ ?_ ?_ ?_ ref' <;> simp [sale, purchase, deal, DeExample.text, Layout.patterns, Layout.formats, q, val])
  ReproduceExample.le ReproduceExample.le_total (some (.iri "g")) stored (by decide +kernel)
  (by simp only [List.mem_cons, List.not_mem_nil, or_false, forall_eq_or_imp, forall_eq]
      exact ⟨by decide +kernel, by decide +kernel⟩)
  (fun ref l h => absurd h (noSum ref l)) (stored_graph ▸ unambiguous) (stored_graph ▸ exact) (.iri "deal") deal joins

-- what the whole reads
example : (hydrate hy 4 none (.iri "deal") subjects).map TypedValue.untype =
    .ok (.map [(.text "address", .text "12 High Street"), (.text "shop", .text "Books")]) := by decide +kernel

-- the conditions matter: with two addresses the purchase, and then the deal, is not read
example : (hydrate (HyCtx.ofTerms reg Example.xsd ReproduceExample.le (dataset ++ [⟨.blank "input", .iri "address", str "x", none⟩]))
    4 none (.iri "deal") subjects).map TypedValue.untype ≠
    .ok (.map [(.text "address", .text "12 High Street"), (.text "shop", .text "Books")]) := by decide +kernel

end DealExample

end Verif.Props
