import Verif.StoredSpec
import Verif.Props.RoundTrip
import Verif.Props.Rename
import Verif.DeriveRound
import Verif.RereadExample

/-!
# Properties C81 and C82: documents stored in one dataset, and compared by their datasets

The specifications are in `Verif/RoundTripSpec.lean` (`StoredIn`) and `Verif/StoredSpec.lean` (`Document`).
-/

set_option linter.unusedSectionVars false
set_option linter.unusedSimpArgs false

namespace Verif.Props

open Dehydrate

/-- **C81** (other data). A tree that was written is read back from every dataset that contains what was written, and whose default
graph says nothing else about the nodes of the tree. Other resources may be described, they may refer to the tree, the tree may
refer to them, and named graphs may say anything.

Missing: the layouts and trees that C17 excludes. -/
theorem C81_stored_partial (d : Document) (hd : d.Written) (le : TypedValue Term → TypedValue Term → Bool) (all : List (Quad Term))
    (hall : all.Nodup) (hst : StoredIn d.options d.ids d.dataset d.subjects all) :
    ∃ w N, (∀ m, N ≤ m → Hydrate.hydrate (HyCtx.ofTerms d.ctx.reg d.ctx.xsd le all) m none d.layout d.subjects = .ok w) ∧
      SameTree d.ctx.reg d.layout d.tree w.untype :=
  (RoundTrip.round_trip_stored d.ctx le d.options hd.xsd hd.sorted hd.blank hd.order d.layout hd.layouts d.depth d.tree hd.tree
    hd.recoverable hd.distinct d.dataset d.subjects hd.written).2 all hall hst

/-- What is written about the nodes of one document is not about the nodes of another one. -/
theorem stored_of_apart (d e : Document) (hd : d.Written) (he : e.Written) (h : d.Apart e) (q : Quad Term) (hq : q ∈ e.dataset) :
    ¬ StandsForNode d.options d.ids d.dataset d.subjects q.s ∧ ∀ l, q.s ≠ .literal l := by
  have hs := (RoundTrip.round_trip_stored e.ctx (fun _ _ => true) e.options he.xsd he.sorted he.blank he.order e.layout he.layouts
    e.depth e.tree he.tree he.recoverable he.distinct e.dataset e.subjects he.written).1 q hq
  have hblank : ∀ (d : Document), d.Written → ∀ t, NodeName d.options t → ∃ b, t = .blank b := by
    rintro d hd t (rfl | ⟨i, rfl⟩)
    · exact hd.blank.input
    · exact hd.blank.generator i
  constructor
  · rintro (⟨i, hi, e1⟩ | ⟨h1, -⟩)
    · rcases hs with ⟨j, hj, e2⟩ | ⟨h2, -⟩
      · rw [e1, Term.iri.injEq] at e2
        exact h.ids i hi (e2 ▸ hj)
      · obtain ⟨b, e2⟩ := hblank e he _ h2
        rw [e1] at e2; simp at e2
    · rcases hs with ⟨j, hj, e2⟩ | ⟨h2, -⟩
      · obtain ⟨b, e1⟩ := hblank d hd _ h1
        rw [e1] at e2; simp at e2
      · exact h.names _ h1 h2
  · intro l e1
    rcases hs with ⟨j, hj, e2⟩ | ⟨h2, -⟩
    · rw [e1] at e2; simp at e2
    · obtain ⟨b, e2⟩ := hblank e he _ h2
      rw [e1] at e2; simp at e2

/-- **C81** (documents). Put together any number of documents that describe different things, each one written on its own: each
one is read back from the whole. The documents may have different layouts, and may refer to each other. The whole may be in any
order, and may have other data in named graphs.

Missing: the layouts and trees that C17 excludes. -/
theorem C81_documents_partial {ι : Type} (docs : ι → Document) (hd : ∀ k, (docs k).Written)
    (hap : ∀ j k, j ≠ k → (docs j).Apart (docs k)) (all : List (Quad Term)) (hall : all.Nodup)
    (hcontains : ∀ k, ∀ q ∈ (docs k).dataset, q ∈ all) (honly : ∀ q ∈ all, q.g = none → ∃ k, q ∈ (docs k).dataset)
    (le : TypedValue Term → TypedValue Term → Bool) (k : ι) :
    ∃ w N, (∀ m, N ≤ m →
        Hydrate.hydrate (HyCtx.ofTerms (docs k).ctx.reg (docs k).ctx.xsd le all) m none (docs k).layout (docs k).subjects = .ok w) ∧
      SameTree (docs k).ctx.reg (docs k).layout (docs k).tree w.untype := by
  refine C81_stored_partial (docs k) (hd k) le all hall ⟨hcontains k, fun q hq hnot hg => ?_⟩
  obtain ⟨j, hj⟩ := honly q hq hg
  have hne : k ≠ j := by
    rintro rfl
    exact hnot hj
  exact stored_of_apart _ _ (hd k) (hd j) (hap k j hne) q hj

namespace Witness

open TreeExample

/-- Options that name the nodes without identifier with another prefix. -/
def prefixed (p : Char) : DeOptions :=
  { inputCount := none
    generator := fun i => .blank (String.ofList (p :: List.replicate (i + 1) 'x'))
    inputTerm := fun i => .blank (String.ofList (p :: 'i' :: List.replicate i 'x'))
    order := id }

theorem prefixed_blank (p : Char) : BlankNames (prefixed p) where
  generator i := ⟨_, rfl⟩
  input := ⟨_, rfl⟩
  injective i j h := by
    simp only [prefixed, Term.blank.injEq] at h
    have := congrArg (fun s => s.toList.length) h
    simpa using this
  input_ne i h := by
    simp only [prefixed, Term.blank.injEq] at h
    have := congrArg String.toList h
    simp [List.replicate_succ] at this

theorem prefixed_apart (p q : Char) (hpq : p ≠ q) (t : Term) (h : NodeName (prefixed p) t) : ¬ NodeName (prefixed q) t := by
  have key : ∀ r, NodeName (prefixed r) t → ∃ l, t = .blank (String.ofList (r :: l)) := by
    rintro r (rfl | ⟨i, rfl⟩) <;> exact ⟨_, rfl⟩
  intro h'
  obtain ⟨l, e⟩ := key p h
  obtain ⟨l', e'⟩ := key q h'
  rw [e, Term.blank.injEq] at e'
  have := congrArg String.toList e'
  simp at this
  exact hpq this.1

/-- A club whose only member is Carol, who is not a member of the other one. -/
def go : Value := .map [(.text "members", .list [.map [(.text "id", .text "carol"), (.text "name", .text "Carol")]]),
  (.text "tags", .list [.text "a"])]

/-- The two clubs, written with two prefixes. -/
def clubs : Bool → Document
  | true => ⟨ctx, prefixed 'a', .iri "club", 6, chess, (match dehydrate ctx 6 chess (.iri "club") (prefixed 'a') with
      | .ok (d, _) => d | _ => []), [.blank "ai"]⟩
  | false => ⟨ctx, prefixed 'b', .iri "club", 6, go, (match dehydrate ctx 6 go (.iri "club") (prefixed 'b') with
      | .ok (d, _) => d | _ => []), [.blank "bi"]⟩

theorem go_sorted : go.Sorted := by
  refine .map _ (by unfold SortedKeys; decide +kernel) ?_
  simp only [List.mem_cons, List.not_mem_nil, or_false, forall_eq_or_imp, forall_eq]
  refine ⟨.list _ ?_, .list _ ?_⟩
  · simp only [List.mem_singleton, forall_eq]
    refine .map _ (by unfold SortedKeys; decide +kernel) ?_
    simp only [List.mem_cons, List.not_mem_nil, or_false, forall_eq_or_imp, forall_eq]
    exact ⟨.literal _, .literal _⟩
  · simp only [List.mem_singleton, forall_eq]
    exact .literal _

theorem go_recoverable : Recoverable reg (.iri "club") go := by
  refine .product (l := club) _ rfl ?_
  intro k v f hv hf
  simp only [List.mem_cons, Prod.mk.injEq, List.not_mem_nil, or_false] at hv
  simp only [club, List.mem_cons, List.not_mem_nil, or_false, link, self, Prod.mk.injEq] at hf
  rcases hv with ⟨rfl, rfl⟩ | ⟨rfl, rfl⟩ <;> simp [Value.text] at hf <;> subst hf
  · refine .ordered (l := members) _ rfl (by simp) ?_
    simp only [List.mem_singleton, forall_eq]
    exact person_noEmpty _
  · refine .unordered (l := DeExample.tags) _ rfl ?_
    intro v _
    exact .leaf _ (by simp [DeExample.tags, DeExample.val, reg, Layout.formats])

theorem clubs_written : ∀ k, (clubs k).Written
  | true => ⟨Example.xsd_laws, reg_sorted, prefixed_blank 'a', fun _ => .refl _, trees (.iri "club") _ rfl, chess_sorted,
      chess_noEmpty, chess_ids 6, by decide +kernel⟩
  | false => ⟨Example.xsd_laws, reg_sorted, prefixed_blank 'b', fun _ => .refl _, trees (.iri "club") _ rfl, go_sorted,
      go_recoverable, by decide +kernel, by decide +kernel⟩

theorem clubs_apart : ∀ j k, j ≠ k → (clubs j).Apart (clubs k)
  | true, true, h => absurd rfl h
  | false, false, h => absurd rfl h
  | true, false, _ => ⟨by decide +kernel, prefixed_apart 'a' 'b' (by decide)⟩
  | false, true, _ => ⟨by decide +kernel, prefixed_apart 'b' 'a' (by decide)⟩

/-- Both clubs, and something else in a named graph. -/
def store : List (Quad Term) :=
  ⟨.blank "ai", .iri "type", .iri "Person", some (.iri "elsewhere")⟩ :: ((clubs true).dataset ++ (clubs false).dataset)

end Witness

open Witness in
example := C81_documents_partial clubs clubs_written clubs_apart store (by decide +kernel)
  (fun k q hq => List.mem_cons_of_mem _ (List.mem_append.2 (by cases k; exact .inr hq; exact .inl hq)))
  (fun q hq hg => by
    rcases List.mem_cons.1 hq with rfl | hq
    · simp at hg
    · rcases List.mem_append.1 hq with h | h
      · exact ⟨true, h⟩
      · exact ⟨false, h⟩)
  (fun _ _ => true)

example : Witness.store.length = 25 := by decide +kernel

namespace Witness

/-- The dataset of a club written with the default options. -/
def byDefault (v : Value) : List (Quad Term) :=
  match dehydrate TreeExample.ctx 6 v (.iri "club") (.default id) with
  | .ok (d, _) => d
  | _ => []

end Witness

open Witness in
/-- **C81** fails for documents written with the default options, without renaming their blank nodes: all the documents have the
same blank nodes, whatever they describe. Neither club can be read from the whole. -/
theorem C81_default_names :
    dehydrate TreeExample.ctx 6 TreeExample.chess (.iri "club") (.default id) = .ok (byDefault TreeExample.chess, [.blank "input0"]) ∧
    dehydrate TreeExample.ctx 6 go (.iri "club") (.default id) = .ok (byDefault go, [.blank "input0"]) ∧
    ∀ m w, Hydrate.hydrate (HyCtx.ofTerms TreeExample.reg Example.xsd anyLe
      (toSet (byDefault TreeExample.chess ++ byDefault go))) m none (.iri "club") [.blank "input0"] ≠ .ok w :=
  ⟨by decide +kernel, by decide +kernel, of_err 6 (e := .dataAmbiguity (.orderedListNode (.iri "members") (.blank "0") (.iri "nil"))) (by decide +kernel)⟩

/-! ## C82 -/

/-- **C82.** Two trees written with the same layout as the same dataset, up to the names of blank nodes and the order of quads, are
the same tree: there is a tree that both are equal to, up to the order and repetition of the items of unordered lists.

Missing: the layouts and trees that C17 excludes. -/
theorem C82_written_alike_partial (d e : Document) (hd : d.Written) (he : e.Written) (hctx : e.ctx = d.ctx)
    (hlay : e.layout = d.layout) (hreg : d.ctx.reg.Closed) (f : Term → Term) (hf : d.Isomorphic e f) :
    ∃ u, SameTree d.ctx.reg d.layout d.tree u ∧ SameTree d.ctx.reg d.layout e.tree u := by
  obtain ⟨le, hle⟩ := exists_totalOrder (TypedValue Term)
  obtain ⟨w, N, hw, hs⟩ := C81_stored_partial d hd le d.dataset (RoundTrip.dataset_nodup hd.written)
    ⟨fun _ h => h, fun _ h h' => absurd h h'⟩
  obtain ⟨w', N', hw', hs'⟩ := C81_stored_partial e he le e.dataset (RoundTrip.dataset_nodup he.written)
    ⟨fun _ h => h, fun _ h h' => absurd h h'⟩
  rw [hctx, hlay] at hw' hs'
  -- the dataset of `d`, renamed
  have hinj : ∀ r r', (HyCtx.ofTerms d.ctx.reg d.ctx.xsd le d.dataset).Uses none d.subjects r →
      (HyCtx.ofTerms d.ctx.reg d.ctx.xsd le d.dataset).Uses none d.subjects r' → f r = f r' → r = r' := by
    have key : ∀ r, (HyCtx.ofTerms d.ctx.reg d.ctx.xsd le d.dataset).Uses none d.subjects r →
        (∃ q ∈ d.dataset, q.Has r) ∨ r ∈ d.subjects ∨ d.ctx.reg.HasConstant r := by
      rintro r (h | h | h | h)
      · exact .inl h
      · exact .inr (.inr h)
      · simp at h
      · exact .inr (.inl h)
    exact fun r r' h h' => hf.injective r r' (key r h) (key r' h')
  have h1 := (C67_same_tree (HyCtx.ofTerms d.ctx.reg d.ctx.xsd le d.dataset)
    (HyCtx.ofTerms d.ctx.reg d.ctx.xsd le (d.dataset.map (Quad.map f))) f none d.subjects rfl rfl rfl rfl hinj hf.constant
    (fun r _ => by
      cases r with
      | iri i => rw [hf.iri]; rfl
      | literal l => rw [hf.literal]; rfl
      | blank b => obtain ⟨b', hb⟩ := hf.blank b; rw [hb]; rfl)
    (fun r _ => by
      cases r with
      | iri i => rw [hf.iri]; rfl
      | literal l => rw [hf.literal]; rfl
      | blank b => obtain ⟨b', hb⟩ := hf.blank b; rw [hb]; rfl)
    (max N N') d.layout w).2 (hw _ (Nat.le_max_left ..))
  have hnd : (d.dataset.map (Quad.map f)).Nodup := by
    refine List.Nodup.map_on ?_ (RoundTrip.dataset_nodup hd.written)
    intro q hq q' hq' e1
    have hi : ∀ t t', q.Has t → q'.Has t' → f t = f t' → t = t' := fun t t' h h' =>
      hf.injective t t' (.inl ⟨q, hq, h⟩) (.inl ⟨q', hq', h'⟩)
    obtain ⟨s, p, o, g⟩ := q
    obtain ⟨s', p', o', g'⟩ := q'
    simp only [Quad.map, Quad.mk.injEq] at e1
    obtain ⟨e1, e2, e3, e4⟩ := e1
    rw [hi s s' (.inl rfl) (.inl rfl) e1, hi p p' (.inr (.inl rfl)) (.inr (.inl rfl)) e2,
      hi o o' (.inr (.inr (.inl rfl))) (.inr (.inr (.inl rfl))) e3]
    cases g <;> cases g' <;> simp at e4
    · rfl
    · rw [hi _ _ (.inr (.inr (.inr rfl))) (.inr (.inr (.inr rfl))) e4]
  have h2 := hw' (max N N') (Nat.le_max_right ..)
  rw [hf.subjects] at h2
  have h3 := C07_hydrate_dataset_is_a_set_partial (HyCtx.ofTerms d.ctx.reg d.ctx.xsd le (d.dataset.map (Quad.map f))) e.dataset
    hreg hnd (RoundTrip.dataset_nodup he.written) hle
    (fun q => by
      simp only [HyCtx.ofTerms, List.mem_map]
      rw [hf.dataset]
      simp only [eq_comm])
    (max N N') none d.layout (d.subjects.map f)
    (by rw [show (none : Option Term) = (none : Option Term).map f from rfl, h1]; simp)
    (by refine fun h => ?_; cases h2.symm.trans h)
    (by rw [show (none : Option Term) = (none : Option Term).map f from rfl, h1]; simp)
    (by refine fun h => ?_; cases h2.symm.trans h) w
  have h4 := h3.1 h1
  have : w = w' := by
    have := h4.symm.trans h2
    injection this
  exact ⟨w.untype, hs, this ▸ hs'⟩

/-- **C82** (without unordered lists). The trees are equal. -/
theorem C82_different_trees_partial (d e : Document) (hd : d.Written) (he : e.Written) (hctx : e.ctx = d.ctx)
    (hlay : e.layout = d.layout) (hreg : d.ctx.reg.Closed) (f : Term → Term) (hf : d.Isomorphic e f)
    (hset : ∀ ref', Reaches d.ctx.reg d.layout ref' → ∀ l, d.ctx.reg ref' ≠ some (.unordered l)) : d.tree = e.tree := by
  obtain ⟨u, h1, h2⟩ := C82_written_alike_partial d e hd he hctx hlay hreg f hf
  rw [eq_of_sameTree hset h1, eq_of_sameTree hset h2]

namespace Witness

open TreeExample

/-- Exchanges the two prefixes. -/
def swapFirst : List Char → List Char
  | 'a' :: l => 'b' :: l
  | 'b' :: l => 'a' :: l
  | l => l

theorem swapFirst_twice (l : List Char) : swapFirst (swapFirst l) = l := by
  match l with
  | [] => rfl
  | c :: l =>
    by_cases ha : c = 'a'
    · subst ha; rfl
    · by_cases hb : c = 'b'
      · subst hb; rfl
      · have : swapFirst (c :: l) = c :: l := by
          unfold swapFirst
          split
          · rename_i h; simp at h; exact absurd h.1 ha
          · rename_i h; simp at h; exact absurd h.1 hb
          · rfl
        rw [this, this]

/-- Exchanges the two prefixes of blank nodes. -/
def exchange : Term → Term
  | .blank s => .blank (String.ofList (swapFirst s.toList))
  | t => t

theorem exchange_twice (t : Term) : exchange (exchange t) = t := by
  cases t with
  | blank s => simp only [exchange, String.toList_ofList, swapFirst_twice, String.ofList_toList]
  | _ => rfl

/-- The list of members of the first club, written with each of the two prefixes. -/
def memberLists (p : Char) : Document :=
  ⟨ctx, prefixed p, .iri "members", 6, both, (match dehydrate ctx 6 both (.iri "members") (prefixed p) with
      | .ok (d, _) => d | _ => []), [.blank (String.ofList [p, 'i'])]⟩

theorem members_written (p : Char) (hp : dehydrate ctx 6 both (.iri "members") (prefixed p) =
    .ok ((memberLists p).dataset, (memberLists p).subjects)) : (memberLists p).Written :=
  ⟨Example.xsd_laws, reg_sorted, prefixed_blank p, fun _ => .refl _, trees (.iri "members") _ rfl, both_sorted, both_noEmpty,
    both_ids, hp⟩

theorem members_isomorphic : (memberLists 'a').Isomorphic (memberLists 'b') exchange where
  iri _ := rfl
  literal _ := rfl
  blank _ := ⟨_, rfl⟩
  constant t h := by
    obtain ⟨i, rfl⟩ := RereadExample.constant_iri t h
    rfl
  injective t t' _ _ h := by rw [← exchange_twice t, h, exchange_twice]
  dataset q := by
    have : (memberLists 'b').dataset = (memberLists 'a').dataset.map (Quad.map exchange) := by decide +kernel
    rw [this, List.mem_map]
    simp only [eq_comm]
  subjects := by decide +kernel

end Witness

open Witness TreeExample in
theorem Witness.members_reach (ref : Term) (h : Reaches reg (.iri "members") ref) (l : UnorderedLayout Term) :
    reg ref ≠ some (.unordered l) := by
  have : ref = .iri "members" ∨ ref = .iri "person" ∨ ref = .iri "number" ∨ ref = .iri "id" ∨ ref = .iri "text" := by
    induction h with
    | refl => exact .inl rfl
    | step _ hl hf ih =>
      rcases ih with rfl | rfl | rfl | rfl | rfl <;> simp only [reg, Option.some.injEq] at hl <;> subst hl <;>
        simp [Layout.formats, members, person, link, self, DeExample.val] at hf
      · subst hf; simp
      · rcases hf with rfl | rfl | rfl <;> simp
  rcases this with rfl | rfl | rfl | rfl | rfl <;> simp [reg]

open Witness in
example := C82_different_trees_partial _ _ (members_written 'a' (by decide +kernel)) (members_written 'b' (by decide +kernel)) rfl rfl
  RereadExample.reg_closed exchange members_isomorphic members_reach

open Witness in
example := C82_written_alike_partial _ _ (members_written 'a' (by decide +kernel)) (members_written 'b' (by decide +kernel)) rfl rfl
  RereadExample.reg_closed exchange members_isomorphic

namespace Witness

/-- A constant that states nothing. -/
def colour (name : String) : Layout Term := .unit { input := 1, intro := 0, dataset := [], const := .text name }

/-- One of two colours. -/
def colours : DeCtx where
  reg
    | .iri "colour" => some (.sum
        { input := 1, intro := 0, dataset := []
          variants := [⟨"red", 0, DeExample.val "red" 0, []⟩, ⟨"green", 0, DeExample.val "green" 0, []⟩] })
    | .iri "red" => some (colour "red")
    | .iri "green" => some (colour "green")
    | _ => none
  isIri := fun _ => true
  xsd := Example.xsd

end Witness

/-- **C82** fails for a sum of constants that state nothing about their subject: all of them are written as the empty dataset. -/
theorem C82_constants :
    dehydrate Witness.colours 3 (.text "red") (.iri "colour") (.default id) = .ok ([], [.blank "input0"]) ∧
    dehydrate Witness.colours 3 (.text "green") (.iri "colour") (.default id) = .ok ([], [.blank "input0"]) := by
  constructor <;> decide +kernel

end Verif.Props
