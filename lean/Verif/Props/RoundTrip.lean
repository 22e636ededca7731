import Verif.RoundTripExample
import Verif.RoundTripMain
import Verif.RoundTripTotal

/-!
# Properties C17, C18 (round trips)

The specification is in `Verif/RoundTripSpec.lean`: `TreeLayouts` (the layouts considered: every node of the tree is one
resource linked to its parent by a property), `SameTree` (equality, up to the order and repetition of the items of
unordered lists), `nodeIds`, `BlankNames`, `Recoverable`.
-/

set_option linter.unusedSectionVars false

namespace Verif.Props

open Verif.Dehydrate RoundTrip

/-! ## C17: records -/

/-- **C17** (trees of records, lists, sums and literals). Take layouts that write every node of a tree as one resource
linked to its parent by a property, where the variants of a sum can be told apart by what they write. Dehydrate a tree
that has no empty ordered list and no two nodes with the same identifier, naming unidentified resources with distinct
blank nodes. Hydrating the dataset, from the subject that was returned, terminates and gives back the same tree, up to
the order and repetition of the items of unordered lists.

Missing for the full property: layouts outside this class (several inputs, named graphs, shared properties, identifier
variants that state no triple of their own, sums where a variant fails after it has written something), for which the
round trip does not hold in general; see the witnesses below. -/
theorem C17_tree_round_trip_partial (c : DeCtx) (le : TypedValue Term → TypedValue Term → Bool) (o : DeOptions)
    (hx : XsdLaws c.xsd) (hsort : c.reg.Sorted) (hb : BlankNames o) (hord : ∀ l, (o.order l).Perm l) (ref : Term)
    (htree : TreeLayouts c.reg c.xsd ref) (n : Nat) (v : Value) (hv : v.Sorted) (hne : Recoverable c.reg ref v)
    (hid : (nodeIds c.reg n ref v).Nodup) (dataset : List (Quad Term)) (subjects : List Term)
    (hrun : dehydrate c n v ref o = .ok (dataset, subjects)) :
    ∃ w N, (∀ m, N ≤ m → Hydrate.hydrate (HyCtx.ofTerms c.reg c.xsd le dataset) m none ref subjects = .ok w) ∧
      SameTree c.reg ref v w.untype :=
  round_trip c le o hx hsort hb hord ref htree n v hv hne hid dataset subjects hrun

/-- Without unordered lists, `SameTree` is equality. -/
theorem eq_of_sameTree {R : Type _} {reg : Registry R} {ref : R}
    (h : ∀ ref', Reaches reg ref ref' → ∀ l, reg ref' ≠ some (.unordered l)) {v w : Value} (hs : SameTree reg ref v w) :
    v = w := by
  have lift : ∀ {ref l f}, (∀ ref', Reaches reg ref ref' → ∀ l, reg ref' ≠ some (.unordered l)) → reg ref = some l →
      f ∈ l.formats → ∀ ref', Reaches reg f.layout ref' → ∀ l, reg ref' ≠ some (.unordered l) := by
    intro ref l f h hl hf ref' hr
    apply h
    have : ∀ a b, Reaches reg a b → ∀ r, Reaches reg r a → Reaches reg r b := by
      intro a b hab
      induction hab with
      | refl => exact fun _ hra => hra
      | step _ h1 h2 ih => exact fun r hra => .step (ih r hra) h1 h2
    exact this _ _ hr _ (.step (.refl _) hl hf)
  have pointwise : ∀ vs vs' : List Value, vs.length = vs'.length → (∀ e ∈ vs.zip vs', e.1 = e.2) → vs = vs' := by
    intro vs
    induction vs with
    | nil => intro vs' hlen _; cases vs' with
      | nil => rfl
      | cons _ _ => simp at hlen
    | cons v vs ih => intro vs' hlen he; cases vs' with
      | nil => simp at hlen
      | cons v' vs' =>
        simp only [List.zip_cons_cons, List.mem_cons, forall_eq_or_imp] at he
        rw [he.1, ih vs' (by simpa using hlen) he.2]
  induction hs with
  | leaf => rfl
  | product m m' hl hk hf _ ih =>
    congr 1
    apply List.ext_getElem
    · simpa using congrArg List.length hk
    · intro i h1 h2
      have e : m[i].1 = m'[i].1 := by
        have := congrArg (fun l => l[i]?) hk
        simpa [List.getElem?_eq_getElem h1, List.getElem?_eq_getElem h2] using this
      rcases he : m[i] with ⟨k, v⟩
      rcases he' : m'[i] with ⟨k', v'⟩
      rw [he, he'] at e
      simp only at e
      subst e
      have hm : (k, v) ∈ m := he ▸ List.getElem_mem h1
      obtain ⟨f, hf'⟩ := hf _ _ hm
      rw [ih k v v' f hm (he' ▸ List.getElem_mem h2) hf'
        (lift h hl (by simp only [Layout.formats, List.mem_map]; exact ⟨_, hf', rfl⟩))]
  | unordered vs vs' f g hl => exact absurd hl (h _ (.refl _) _)
  | ordered vs vs' hl hlen _ ih =>
    congr 1
    exact pointwise _ _ hlen fun e he => ih e he (lift h hl (by simp [Layout.formats]))
  | @sized ref l vs vs' hl hlen' hlen _ ih =>
    congr 1
    apply List.ext_getElem hlen
    intro i h1 h2
    have h0 : i < l.items.length := by omega
    have hz : i < (vs.zip vs').length := by simp; omega
    have hz' : i < (l.items.zip (vs.zip vs')).length := by simp; omega
    have hm : (l.items[i], vs[i], vs'[i]) ∈ l.items.zip (vs.zip vs') := by
      have := List.getElem_mem hz'
      simpa using this
    exact ih _ hm (lift h hl (by simp only [Layout.formats, List.mem_map]; exact ⟨_, List.getElem_mem h0, rfl⟩))
  | sum v v' hl hx _ ih => exact ih (lift h hl (by simp only [Layout.formats, List.mem_map]; exact ⟨_, hx, rfl⟩))

/-- **C17** (records without unordered lists). The record itself is given back. -/
theorem C17_record_round_trip_partial (c : DeCtx) (le : TypedValue Term → TypedValue Term → Bool) (o : DeOptions)
    (hx : XsdLaws c.xsd) (hsort : c.reg.Sorted) (hb : BlankNames o) (hord : ∀ l, (o.order l).Perm l) (ref : Term)
    (htree : TreeLayouts c.reg c.xsd ref) (hset : ∀ ref', Reaches c.reg ref ref' → ∀ l, c.reg ref' ≠ some (.unordered l))
    (n : Nat) (v : Value) (hv : v.Sorted) (hne : Recoverable c.reg ref v)
    (hid : (nodeIds c.reg n ref v).Nodup) (dataset : List (Quad Term)) (subjects : List Term)
    (hrun : dehydrate c n v ref o = .ok (dataset, subjects)) :
    ∃ w N, (∀ m, N ≤ m → Hydrate.hydrate (HyCtx.ofTerms c.reg c.xsd le dataset) m none ref subjects = .ok w) ∧
      w.untype = v := by
  obtain ⟨w, N, h1, h2⟩ := round_trip c le o hx hsort hb hord ref htree n v hv hne hid dataset subjects hrun
  exact ⟨w, N, h1, (eq_of_sameTree hset h2).symm⟩

namespace Witness

open TreeExample in
/-- The dataset of the club. -/
def chessQuads : List (Quad Term) :=
  match dehydrate ctx 6 chess (.iri "club") DeExample.opts with
  | .ok (d, _) => d
  | _ => []

theorem dehydrate_chess : dehydrate TreeExample.ctx 6 TreeExample.chess (.iri "club") DeExample.opts =
    .ok (chessQuads, [.blank "input0"]) := by decide +kernel

theorem chessQuads_length : chessQuads.length = 17 := by decide +kernel

end Witness

example := C17_tree_round_trip_partial TreeExample.ctx (fun _ _ => true) DeExample.opts Example.xsd_laws
  TreeExample.reg_sorted TreeExample.opts_blank (fun _ => .refl _) (.iri "club")
  (TreeExample.trees (.iri "club") _ rfl) 6 TreeExample.chess TreeExample.chess_sorted TreeExample.chess_noEmpty
  TreeExample.chess_ids _ _ Witness.dehydrate_chess

namespace Witness

/-- The dataset of the drawing: a list of a circle, a label, a square and a blank figure. -/
def drawingQuads : List (Quad Term) :=
  match dehydrate SumExample.ctx 6 SumExample.drawing (.iri "figures") DeExample.opts with
  | .ok (d, _) => d
  | _ => []

theorem dehydrate_drawing : dehydrate SumExample.ctx 6 SumExample.drawing (.iri "figures") DeExample.opts =
    .ok (drawingQuads, [.blank "input0"]) := by decide +kernel

theorem drawingQuads_length : drawingQuads.length = 13 := by decide +kernel

end Witness

example := C17_tree_round_trip_partial SumExample.ctx (fun _ _ => true) DeExample.opts Example.xsd_laws
  SumExample.reg_sorted TreeExample.opts_blank (fun _ => .refl _) (.iri "figures")
  (SumExample.trees (.iri "figures") _ rfl) 6 SumExample.drawing SumExample.drawing_sorted SumExample.drawing_recoverable
  SumExample.drawing_ids _ _ Witness.dehydrate_drawing

namespace Witness

/-- The dataset of two identifiers and a circle. -/
def markedQuads : List (Quad Term) :=
  match dehydrate SumExample.markCtx 6 SumExample.marked (.iri "marks") DeExample.opts with
  | .ok (d, _) => d
  | _ => []

theorem dehydrate_marked : dehydrate SumExample.markCtx 6 SumExample.marked (.iri "marks") DeExample.opts =
    .ok (markedQuads, [.blank "input0"]) := by decide +kernel

theorem markedQuads_length : markedQuads.length = 10 := by decide +kernel

end Witness

example := C17_tree_round_trip_partial SumExample.markCtx (fun _ _ => true) DeExample.opts Example.xsd_laws
  SumExample.markReg_sorted TreeExample.opts_blank (fun _ => .refl _) (.iri "marks")
  (SumExample.markTrees (.iri "marks") _ rfl) 6 SumExample.marked SumExample.marked_sorted SumExample.marked_recoverable
  (by rw [show SumExample.markCtx.reg = SumExample.markReg from rfl, SumExample.marked_ids]; decide) _ _
  Witness.dehydrate_marked

/-- **C17** (every conforming tree). With the same layouts, when no sum is a variant of itself: every tree that conforms
to the layout (C10), that has no empty ordered list, no two nodes with the same identifier, only numbers that have a
decimal representation, and no sum value that several variants may accept, is dehydrated, and hydrating the dataset
gives back the same tree. Missing: as above. -/
theorem C17_conforming_round_trip_partial (c : DeCtx) (le : TypedValue Term → TypedValue Term → Bool) (o : DeOptions)
    (hx : XsdLaws c.xsd) (hsort : c.reg.Sorted) (hb : BlankNames o) (hord : ∀ l, (o.order l).Perm l) (ref : Term)
    (htree : TreeLayouts c.reg c.xsd ref) (hacyclic : c.reg.AcyclicSums) (v : Value) (hv : v.Sorted)
    (hconf : Conforms c.reg c.isIri ref v) (hp : v.Printable c.xsd) (hne : Recoverable c.reg ref v)
    (hid : ∀ n, (nodeIds c.reg n ref v).Nodup) :
    ∃ N, ∀ n, N ≤ n → ∃ dataset subject w M, dehydrate c n v ref o = .ok (dataset, [subject]) ∧
      (∀ m, M ≤ m → Hydrate.hydrate (HyCtx.ofTerms c.reg c.xsd le dataset) m none ref [subject] = .ok w) ∧
      SameTree c.reg ref v w.untype :=
  total c le o hx hsort hb hord ref htree hacyclic v hv hconf hp hne hid

/-- **C11** (top level). For these layouts there is no ambiguity: every conforming tree is accepted, whatever the
options. -/
theorem C11_trees_accepted (c : DeCtx) (hsort : c.reg.Sorted) (ref : Term) (htree : TreeLayouts c.reg c.xsd ref)
    (hacyclic : c.reg.AcyclicSums) (v : Value) (hv : v.Sorted) (hconf : Conforms c.reg c.isIri ref v)
    (hp : v.Printable c.xsd) (hne : Recoverable c.reg ref v) :
    ∃ N, ∀ n, N ≤ n → ∀ o, ∃ dataset subject, dehydrate c n v ref o = .ok (dataset, [subject]) :=
  accepts c hsort ref htree hacyclic v hv hconf hp hne

namespace Witness

theorem distinctKeys_of_sorted {reg : Registry Term} (h : reg.Sorted) : reg.DistinctKeys :=
  fun ref l hl => SortedKeys.nodup (h ref l hl)

theorem drawing_conforms : Conforms SumExample.reg SumExample.ctx.isIri (.iri "figures") SumExample.drawing :=
  C10_dehydrate_conforms SumExample.ctx (distinctKeys_of_sorted SumExample.reg_sorted) 6 _ _ _ _ dehydrate_drawing

theorem chess_conforms : Conforms TreeExample.reg TreeExample.ctx.isIri (.iri "club") TreeExample.chess :=
  C10_dehydrate_conforms TreeExample.ctx (distinctKeys_of_sorted TreeExample.reg_sorted) 6 _ _ _ _ dehydrate_chess

theorem figure_acyclic : SumExample.reg.AcyclicSums := by
  refine ⟨fun r => if r = .iri "figure" then 1 else 0, fun ref l hl x hx => ?_⟩
  unfold SumExample.reg at hl
  split at hl <;> simp only [Option.some.injEq, reduceCtorEq, Layout.sum.injEq] at hl
  subst hl
  simp only [SumExample.figure, List.mem_cons, List.not_mem_nil, or_false] at hx
  rcases hx with rfl | rfl | rfl | rfl <;> decide +kernel

theorem tree_acyclic : TreeExample.reg.AcyclicSums := by
  refine ⟨fun _ => 0, fun ref l hl => ?_⟩
  unfold TreeExample.reg at hl
  split at hl <;> simp at hl

theorem chess_ids (n : Nat) : (nodeIds TreeExample.reg n (.iri "club") TreeExample.chess).Nodup := by
  rcases n with _ | _ | _ | _ | _ | _ | n
  · decide +kernel
  · decide +kernel
  · decide +kernel
  · decide +kernel
  · decide +kernel
  · decide +kernel
  · simp [nodeIds, TreeExample.reg, TreeExample.chess, TreeExample.club, TreeExample.both, TreeExample.alice,
      TreeExample.bob, TreeExample.person, TreeExample.link, TreeExample.self, TreeExample.members, TreeExample.place,
      DeExample.tags, DeExample.val, lookup, ownId, Value.text]

theorem drawing_ids (n : Nat) : (nodeIds SumExample.reg n (.iri "figures") SumExample.drawing).Nodup := by
  rcases n with _ | _ | _ | _ | _ | _ | n
  · decide +kernel
  · decide +kernel
  · decide +kernel
  · decide +kernel
  · decide +kernel
  · decide +kernel
  · simp [nodeIds, SumExample.reg, SumExample.drawing, SumExample.figures, SumExample.figure, SumExample.aCircle,
      SumExample.aSquare, SumExample.circle, SumExample.square, TreeExample.link, DeExample.val, lookup, ownId, variantId,
      Value.text, Layout.rejects]

theorem drawing_printable : SumExample.drawing.Printable Example.xsd := by
  have : ∀ q, SumExample.drawing.HasNumber q → q = 0 ∨ q = 1 := by
    intro q h
    cases h with
    | list hm h =>
      simp only [List.mem_cons, List.not_mem_nil, or_false] at hm
      rcases hm with rfl | rfl | rfl | rfl
      · cases h with
        | map hm h => simp only [List.mem_singleton, Prod.mk.injEq] at hm; obtain ⟨-, rfl⟩ := hm; cases h; exact .inr rfl
      · cases h
      · cases h with
        | map hm h => simp only [List.mem_singleton, Prod.mk.injEq] at hm; obtain ⟨-, rfl⟩ := hm; cases h; exact .inl rfl
      · cases h
  intro q h
  rcases this q h with rfl | rfl
  · exact ⟨_, rfl⟩
  · exact ⟨_, rfl⟩

theorem club_printable : TreeExample.chess.Printable Example.xsd := by
  have : ∀ q, TreeExample.chess.HasNumber q → q = 0 ∨ q = 1 := by
    intro q h
    cases h with
    | map hm h =>
      simp only [List.mem_cons, Prod.mk.injEq, List.not_mem_nil, or_false] at hm
      rcases hm with ⟨-, rfl⟩ | ⟨-, rfl⟩ | ⟨-, rfl⟩
      · cases h with
        | list hm h =>
          simp only [List.mem_cons, List.not_mem_nil, or_false] at hm
          rcases hm with rfl | rfl
          · cases h with
            | map hm h =>
              simp only [List.mem_cons, Prod.mk.injEq, List.not_mem_nil, or_false] at hm
              rcases hm with ⟨-, rfl⟩ | ⟨-, rfl⟩ | ⟨-, rfl⟩
              · cases h; exact .inr rfl
              · cases h
              · cases h
          · cases h with
            | map hm h =>
              simp only [List.mem_cons, Prod.mk.injEq, List.not_mem_nil, or_false] at hm
              rcases hm with ⟨-, rfl⟩ | ⟨-, rfl⟩ <;> cases h
      · cases h with
        | list hm h =>
          simp only [List.mem_cons, List.not_mem_nil, or_false] at hm
          rcases hm with rfl | rfl <;> cases h
          · exact .inl rfl
          · exact .inr rfl
      · cases h with
        | list hm h =>
          simp only [List.mem_cons, List.not_mem_nil, or_false] at hm
          rcases hm with rfl | rfl <;> cases h
  intro q h
  rcases this q h with rfl | rfl
  · exact ⟨_, rfl⟩
  · exact ⟨_, rfl⟩

end Witness

example := C17_conforming_round_trip_partial SumExample.ctx (fun _ _ => true) DeExample.opts Example.xsd_laws
  SumExample.reg_sorted TreeExample.opts_blank (fun _ => .refl _) (.iri "figures")
  (SumExample.trees (.iri "figures") _ rfl) Witness.figure_acyclic SumExample.drawing SumExample.drawing_sorted
  Witness.drawing_conforms Witness.drawing_printable SumExample.drawing_recoverable Witness.drawing_ids

example := C17_conforming_round_trip_partial TreeExample.ctx (fun _ _ => true) DeExample.opts Example.xsd_laws
  TreeExample.reg_sorted TreeExample.opts_blank (fun _ => .refl _) (.iri "club")
  (TreeExample.trees (.iri "club") _ rfl) Witness.tree_acyclic TreeExample.chess TreeExample.chess_sorted
  Witness.chess_conforms Witness.club_printable TreeExample.chess_noEmpty Witness.chess_ids

example := C11_trees_accepted SumExample.ctx SumExample.reg_sorted (.iri "figures")
  (SumExample.trees (.iri "figures") _ rfl) Witness.figure_acyclic SumExample.drawing SumExample.drawing_sorted
  Witness.drawing_conforms Witness.drawing_printable SumExample.drawing_recoverable

namespace Witness

theorem person_sets : ∀ ref', Reaches TreeExample.reg (.iri "person") ref' →
    ∀ l, TreeExample.reg ref' ≠ some (.unordered l) := by
  have : ∀ ref', Reaches TreeExample.reg (.iri "person") ref' →
      ref' ∈ [.iri "person", .iri "number", .iri "id", .iri "text"] := by
    intro ref' h
    induction h with
    | refl => simp
    | step _ h1 h2 ih =>
      simp only [List.mem_cons, List.not_mem_nil, or_false] at ih
      rcases ih with rfl | rfl | rfl | rfl <;> simp only [TreeExample.reg, Option.some.injEq] at h1 <;> subst h1 <;>
        simp [Layout.formats, TreeExample.person, TreeExample.link, TreeExample.self, DeExample.val] at h2 ⊢
      rcases h2 with rfl | rfl | rfl <;> simp
  intro ref' h l hl
  have := this ref' h
  simp only [List.mem_cons, List.not_mem_nil, or_false] at this
  rcases this with rfl | rfl | rfl | rfl <;> simp [TreeExample.reg] at hl

/-- The dataset of the person. -/
def aliceQuads : List (Quad Term) :=
  let a := Term.iri "alice"
  [⟨a, .iri "type", .iri "Person", none⟩, ⟨a, .iri "age", .literal ⟨"1", .any "xsd:decimal"⟩, none⟩,
   ⟨a, .iri "name", .literal ⟨"Alice", .any "xsd:string"⟩, none⟩]

theorem dehydrate_alice : dehydrate TreeExample.ctx 3 TreeExample.alice (.iri "person") DeExample.opts =
    .ok (aliceQuads, [.iri "alice"]) := by decide +kernel

end Witness

example := C17_record_round_trip_partial TreeExample.ctx (fun _ _ => true) DeExample.opts Example.xsd_laws
  TreeExample.reg_sorted TreeExample.opts_blank (fun _ => .refl _) (.iri "person")
  (TreeExample.trees (.iri "person") _ rfl) Witness.person_sets 3 TreeExample.alice TreeExample.alice_sorted
  (TreeExample.person_noEmpty _) (by decide +kernel) _ _ Witness.dehydrate_alice

namespace Witness

theorem never_ok {hc : HyCtx Term} {ref : Term} {ins : List Term} (k : Nat)
    (h : ∀ w, Hydrate.hydrate hc k none ref ins ≠ .ok w) (h' : Hydrate.hydrate hc k none ref ins ≠ .fuel) :
    ∀ m w, Hydrate.hydrate hc m none ref ins ≠ .ok w := by
  intro m w hw
  have h1 := (Hydrate.hydrate_mono hc m (max m k) (by omega) none ref ins).eq_of_ne (by rw [hw]; simp)
  have h2 := (Hydrate.hydrate_mono hc k (max m k) (by omega) none ref ins).eq_of_ne h'
  rw [h1, hw] at h2
  exact h w h2.symm

/-- Any order on typed values. -/
def anyLe : TypedValue Term → TypedValue Term → Bool := fun _ _ => true

/-- A person with a name, and no identifier. -/
def anonymous : Value := .map [(.text "name", .text "Alice")]

/-- What is written about them. -/
def anonymousQuads : List (Quad Term) :=
  [⟨.blank "input0", .iri "type", .iri "Person", none⟩,
   ⟨.blank "input0", .iri "name", .literal ⟨"Alice", .any "xsd:string"⟩, none⟩]

/-- Two persons with the same identifier. -/
def sameId : Value := .list [
  .map [(.text "id", .text "alice"), (.text "name", .text "Alice")],
  .map [(.text "id", .text "alice"), (.text "name", .text "Bob")]]

/-- What is written about them. -/
def sameIdQuads : List (Quad Term) :=
  [⟨.blank "input0", .iri "first", .iri "alice", none⟩, ⟨.blank "input0", .iri "rest", .blank "b", none⟩,
   ⟨.iri "alice", .iri "name", .literal ⟨"Alice", .any "xsd:string"⟩, none⟩,
   ⟨.blank "b", .iri "first", .iri "alice", none⟩, ⟨.blank "b", .iri "rest", .iri "nil", none⟩,
   ⟨.iri "alice", .iri "type", .iri "Person", none⟩,
   ⟨.iri "alice", .iri "name", .literal ⟨"Bob", .any "xsd:string"⟩, none⟩]

theorem of_err {hc : HyCtx Term} {ref : Term} {ins : List Term} (k : Nat) {e : HyError Term}
    (h : Hydrate.hydrate hc k none ref ins = .err e) : ∀ m w, Hydrate.hydrate hc m none ref ins ≠ .ok w :=
  never_ok k (by rw [h]; simp) (by rw [h]; simp)

end Witness

open Witness

/-- **C17** fails when a field giving the identifier of the record is optional and absent: hydration then panics, because
the subject is a blank node (`layouts/src/distill/hy/mod.rs` L229-241, `todo!()`). -/
theorem C17_absent_identifier_fails :
    dehydrate DeExample.ctx 4 anonymous (.iri "person") DeExample.opts = .ok (anonymousQuads, [.blank "input0"]) ∧
    ∀ m, 4 ≤ m → Hydrate.hydrate (HyCtx.ofTerms DeExample.reg Example.xsd anyLe anonymousQuads) m none (.iri "person")
      [.blank "input0"] = .panic := by
  refine ⟨by decide +kernel, fun m hm => ?_⟩
  have e : Hydrate.hydrate (HyCtx.ofTerms DeExample.reg Example.xsd anyLe anonymousQuads) 4 none (.iri "person")
      [.blank "input0"] = .panic := by decide +kernel
  rw [(Hydrate.hydrate_mono _ 4 m hm none _ _).eq_of_ne (by rw [e]; simp), e]

/-- **C17** fails when two records of the tree have the same identifier: what is written about one is mixed with what is
written about the other, and hydration fails. -/
theorem C17_same_identifier_fails :
    dehydrate TreeExample.ctx 6 sameId (.iri "members") DeExample.opts = .ok (sameIdQuads, [.blank "input0"]) ∧
    ∀ m w, Hydrate.hydrate (HyCtx.ofTerms TreeExample.reg Example.xsd anyLe sameIdQuads) m none (.iri "members")
      [.blank "input0"] ≠ .ok w :=
  ⟨by decide +kernel, of_err 6 (e := .dataAmbiguity (.key (.iri "person") (.text "name"))) (by decide +kernel)⟩

namespace Witness

/-- A reference to a figure: its identifier, or the figure itself. -/
def reference : SumLayout Term :=
  { input := 1, intro := 0, dataset := [],
    variants := [
      { name := "id", intro := 0, value := DeExample.val "id" 0, dataset := [] },
      { name := "circle", intro := 0, value := DeExample.val "circle" 0, dataset := [] }] }

/-- The registry. -/
def referenceReg : Registry Term
  | .iri "reference" => some (.sum reference)
  | .iri "id" => some (.id DeExample.ident)
  | ref => SumExample.reg ref

/-- What is written about a circle. -/
def circleQuads : List (Quad Term) :=
  [⟨.blank "input0", .iri "radius", .literal ⟨"1", .any "xsd:decimal"⟩, none⟩]

end Witness

/-- **C17** fails for a sum of an identifier and of a record: a record without identifier is written as a blank node, and
hydration tries to read the blank node as an identifier, which panics (`layouts/src/distill/hy/mod.rs` L229-241). -/
theorem C17_identifier_variant_fails :
    dehydrate { SumExample.ctx with reg := referenceReg } 4 SumExample.aCircle (.iri "reference") DeExample.opts =
      .ok (circleQuads, [.blank "input0"]) ∧
    ∀ m, 4 ≤ m → Hydrate.hydrate (HyCtx.ofTerms referenceReg Example.xsd anyLe circleQuads) m none (.iri "reference")
      [.blank "input0"] = .panic := by
  refine ⟨by decide +kernel, fun m hm => ?_⟩
  have e : Hydrate.hydrate (HyCtx.ofTerms referenceReg Example.xsd anyLe circleQuads) 4 none (.iri "reference")
      [.blank "input0"] = .panic := by decide +kernel
  rw [(Hydrate.hydrate_mono _ 4 m hm none _ _).eq_of_ne (by rw [e]; simp), e]

/-! ## C18: ordered lists -/

/-- **C18** (lists that are not empty). Dehydrating a list with an RDF list layout and hydrating the result gives back a
list of the same length, with the same items in the same order. The items themselves may be records or lists.

Missing: the empty list, for which the property fails (`C18_empty_list_fails`). -/
theorem C18_list_round_trip_partial (c : DeCtx) (le : TypedValue Term → TypedValue Term → Bool) (o : DeOptions)
    (hx : XsdLaws c.xsd) (hsort : c.reg.Sorted) (hb : BlankNames o) (hord : ∀ l, (o.order l).Perm l) (ref : Term)
    (l : OrderedLayout Term) (hl : c.reg ref = some (.ordered l))
    (htree : TreeLayouts c.reg c.xsd ref) (n : Nat) (items : List Value) (hv : ∀ v ∈ items, v.Sorted) (hnil : items ≠ [])
    (hne : ∀ v ∈ items, Recoverable c.reg l.node.value.layout v)
    (hid : (nodeIds c.reg n ref (.list items)).Nodup) (dataset : List (Quad Term)) (subjects : List Term)
    (hrun : dehydrate c n (.list items) ref o = .ok (dataset, subjects)) :
    ∃ w items' N, (∀ m, N ≤ m → Hydrate.hydrate (HyCtx.ofTerms c.reg c.xsd le dataset) m none ref subjects = .ok w) ∧
      w.untype = .list items' ∧ items.length = items'.length ∧
      ∀ e ∈ items.zip items', SameTree c.reg l.node.value.layout e.1 e.2 := by
  obtain ⟨w, N, h1, h2⟩ := round_trip c le o hx hsort hb hord ref htree n (.list items) (.list _ hv)
    (.ordered _ hl hnil hne) hid dataset subjects hrun
  generalize hw : w.untype = v' at h2
  generalize hi : Value.list items = v at h2
  cases h2 with
  | leaf =>
    subst hi
    refine ⟨w, items, N, h1, hw, rfl, fun e he => ?_⟩
    have : e.1 = e.2 := by
      clear hrun hid hne hnil hv hw
      induction items with
      | nil => simp at he
      | cons a t ih =>
        simp only [List.zip_cons_cons, List.mem_cons] at he
        rcases he with rfl | he
        · rfl
        · exact ih he
    rw [this]
    exact .leaf _
  | product _ _ hl' => rw [hl] at hl'; simp at hl'
  | unordered _ _ _ _ hl' => rw [hl] at hl'; simp at hl'
  | sized _ _ hl' => rw [hl] at hl'; simp at hl'
  | sum _ _ hl' => rw [hl] at hl'; simp at hl'
  | @ordered _ l' vs vs' hl' hlen h =>
    rw [hl] at hl'
    simp only [Option.some.injEq, Layout.ordered.injEq] at hl'
    subst hl'
    simp only [Value.list.injEq] at hi
    subst hi
    exact ⟨w, vs', N, h1, hw, hlen, h⟩

namespace Witness

/-- The dataset of the list. -/
def bothQuads : List (Quad Term) :=
  match dehydrate TreeExample.ctx 6 TreeExample.both (.iri "members") DeExample.opts with
  | .ok (d, _) => d
  | _ => []

theorem dehydrate_both : dehydrate TreeExample.ctx 6 TreeExample.both (.iri "members") DeExample.opts =
    .ok (bothQuads, [.blank "input0"]) := by decide +kernel

theorem bothQuads_length : bothQuads.length = 9 := by decide +kernel

end Witness

example := C18_list_round_trip_partial TreeExample.ctx (fun _ _ => true) DeExample.opts Example.xsd_laws
  TreeExample.reg_sorted TreeExample.opts_blank (fun _ => .refl _) (.iri "members") TreeExample.members rfl
  (TreeExample.trees (.iri "members") _ rfl) 6 [TreeExample.alice, TreeExample.bob]
  (by simp [TreeExample.alice_sorted, TreeExample.bob_sorted]) (by simp)
  (by intro v hv; simp only [List.mem_cons, List.not_mem_nil, or_false] at hv
      rcases hv with rfl | rfl <;> exact TreeExample.person_noEmpty _)
  TreeExample.both_ids _ _ Witness.dehydrate_both

/-- **C18** fails on the empty list: nothing is written, and the subject is a new blank node instead of the end of list
(`layouts/src/distill/de/mod.rs` L770-795), so that hydration looks for a first node and fails. -/
theorem C18_empty_list_fails :
    dehydrate TreeExample.ctx 3 (.list []) (.iri "members") DeExample.opts = .ok ([], [.blank "input0"]) ∧
    ∀ m w, Hydrate.hydrate (HyCtx.ofTerms TreeExample.reg Example.xsd anyLe []) m none (.iri "members")
      [.blank "input0"] ≠ .ok w :=
  ⟨by decide +kernel, of_err 3
    (e := .missingData (.orderedListNode (.iri "members") (.blank "input0") (.iri "nil"))) (by decide +kernel)⟩

end Verif.Props
