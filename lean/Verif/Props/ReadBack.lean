import Verif.Follows
import Verif.Props.Kept
import Verif.Props.RoundTrip

/-!
# Property C90: what was written can be read back, unless the data is ambiguous

The specification is in `Verif/ReadBackSpec.lean`.
-/

set_option linter.unusedSectionVars false
set_option linter.unusedSimpArgs false

namespace Verif.Props

open Hydrate Dehydrate Keeping

/-- **C90** (what is said). A tree is written with a layout; other quads may be added to the dataset, or be there before. The
dataset says the tree, from the subjects returned: the patterns of the layouts have the matches that lead to its parts. This holds
for all layouts, sets and `always` included, with any patterns, any number of inputs and introduced variables, as long as no
value format selects a named graph. -/
theorem C90_said (c : DeCtx) (laws : XsdLaws c.xsd) (hcl : c.reg.Closed)
    (hgraph : ∀ ref l, c.reg ref = some l → ∀ f ∈ l.formats, ∀ p, f.graph ≠ some (some p))
    (hbind : ∀ ref l, c.reg ref = some l → l.Binds)
    (n : Nat) (v : Value) (ref : Term) (o : DeOptions) (ho : ∀ l, (o.order l).Perm l) (quads : List (Quad Term))
    (values : List Term) (h : dehydrate c n v ref o = .ok (quads, values))
    (le : TypedValue Term → TypedValue Term → Bool) (ds : List (Quad Term)) (hsub : ∀ q ∈ quads, q ∈ ds)
    (hends : EndsFresh c.reg v o) : Says (HyCtx.ofTerms c.reg c.xsd le ds) n none ref values v := by
  obtain ⟨count, s, f, hrun, W, rfl, hfar⟩ := written_world c n v ref o ho quads values h ds hsub
  refine saying c le laws W ⟨hcl, hgraph, fun _ => hends.apart⟩ hbind (hfar hends) n none ref _ v ⟨[], [], 0⟩ s hrun
    (RoundTrip.extends_rel.refl s) ?_
  intro r hr t _ he
  obtain ⟨i, _, rfl⟩ := List.mem_map.1 hr
  exact nomatch he

/-- **C90** (reading what is said). If the dataset says a tree, nothing is ambiguous, and it says nothing else, then
reading gives this tree, up to the order and repetition of the items of sets. Sums are told apart. -/
theorem C90_exact {R : Type} [DecidableEq R] (c : HyCtx R) (hcl : c.reg.Closed) (hso : c.reg.Sorted) (hno : c.reg.NoVariantIntro) (hds : c.ds.Nodup)
    (hle : TotalOrder c.le) (hsingle : ∀ r, (c.literalsOf r).length ≤ 1) (hapart : c.ToldApart) (n : Nat) (g : Option R) (ref : R)
    (inputs : List R) (v : Value) (hv : v.Sorted) (hsays : Says c n g ref inputs v) (hun : Unambiguous c g ref inputs)
    (hex : Exact c n g ref inputs v) :
    ∃ w, SameTree c.reg ref v w.untype ∧ ∃ N, ∀ m, N ≤ m → hydrate c m g ref inputs = .ok w := by
  obtain ⟨w, hw, he⟩ := meant hcl hno hds hle hsingle hapart hso n g ref inputs v hsays hun hex hv
  obtain ⟨N, hN⟩ := C04_meaning_returns _ hcl hno hds hle hsingle hapart n g ref _ w hw
  exact ⟨w, he, N, hN⟩

/-- **C90** (sets). A tree is written with a layout; other quads may be added to the dataset, or be there before. If nothing
is ambiguous in the dataset — wherever reading may come to, patterns have one match at most, except those of the items of sets —
and the dataset says nothing but the tree — it has no match for the optional fields that the tree does not have, and for
the sets no item that the tree does not have — then reading from the subjects returned gives the tree back, up to the order and
repetition of the items of sets. This holds for all layouts, with any patterns, any number of inputs and introduced variables, as
long as no value format selects a named graph. The names of resources, the lists and the variants are told apart as in C85. -/
theorem C90_sets (c : DeCtx) (laws : XsdLaws c.xsd) (hcl : c.reg.Closed) (hso : c.reg.Sorted)
    (hgraph : ∀ ref l, c.reg ref = some l → ∀ f ∈ l.formats, ∀ p, f.graph ≠ some (some p))
    (hno : c.reg.NoVariantIntro) (hbind : ∀ ref l, c.reg ref = some l → l.Binds)
    (n : Nat) (v : Value) (ref : Term) (o : DeOptions) (ho : ∀ l, (o.order l).Perm l) (quads : List (Quad Term))
    (values : List Term) (h : dehydrate c n v ref o = .ok (quads, values))
    (le : TypedValue Term → TypedValue Term → Bool) (hle : TotalOrder le)
    (ds : List (Quad Term)) (hds : ds.Nodup) (hsub : ∀ q ∈ quads, q ∈ ds) (hv : v.Sorted)
    (hends : EndsFresh c.reg v o) (hapart : (HyCtx.ofTerms c.reg c.xsd le ds).ToldApart)
    (hun : Unambiguous (HyCtx.ofTerms c.reg c.xsd le ds) none ref values)
    (hex : Exact (HyCtx.ofTerms c.reg c.xsd le ds) n none ref values v) :
    ∃ w, SameTree c.reg ref v w.untype ∧
      ∃ N, ∀ m, N ≤ m → hydrate (HyCtx.ofTerms c.reg c.xsd le ds) m none ref values = .ok w :=
  C90_exact (HyCtx.ofTerms c.reg c.xsd le ds) hcl hso hno hds hle (by
    intro r
    unfold HyCtx.ofTerms
    cases r <;> simp) hapart n none ref values v hv
    (C90_said c laws hcl hgraph hbind n v ref o ho quads values h le ds hsub hends) hun hex

/-- Without sets and `always` layouts, nothing else is said if the optional fields have no match. -/
theorem exact_absent {R : Type} [DecidableEq R] {c : HyCtx R} (n : Nat) {g : Option R} {ref : R} {inputs : List R} {v : Value}
    (hset : ∀ ref', Reaches c.reg ref ref' → ∀ l, c.reg ref' = some l → l.Settled) (hne : v.NoEmptyList)
    (hab : Absent c g ref inputs v) : Exact c n g ref inputs v := by
  induction n generalizing g ref inputs v with
  | zero => trivial
  | succ n ih =>
    intro l σ hl hσ
    have hs := hset ref (.refl _) l hl
    refine ⟨?_, fun σ₀ pats fmt v' τ inputs' g' hp h1 h2 h3 _ => ih ?_ ?_ (absent_part hab hl hσ hp h1 h2 h3)⟩
    · cases l with
      | product l => cases v with
        | map m => exact fun k fd hf hopt hk τ => hab _ _ _ _ .here l hl k fd hf hopt hk σ τ hσ
        | literal _ => trivial
        | list _ => trivial
      | unordered l => exact hs.elim
      | always => exact hs.elim
      | ordered l => cases v with
        | list vs => cases hne; assumption
        | literal _ => trivial
        | map _ => trivial
      | _ => trivial
    · intro ref' hr
      refine hset ref' ?_
      have : fmt ∈ l.formats := part_formats (part_of hp)
      induction hr with
      | refl => exact .step (.refl _) hl this
      | step _ h1 h2 ih => exact .step ih h1 h2
    · cases hp with
      | field _ h => cases hne with
        | map _ hne => exact hne _ h
      | element h => exact hs.elim
      | node _ h => cases hne with
        | list _ _ hne => exact hne _ h
      | item h => cases hne with
        | list _ _ hne => exact hne _ (List.of_mem_zip h).2
      | variant _ => exact hne

/-- **C90** (optional fields). A tree is written with a layout; other quads may be added to the dataset, or be there before. If nothing
is ambiguous in the dataset — wherever reading may come to, patterns have one match at most — and the dataset says nothing for
the optional fields that the tree does not have, then reading from the subjects returned gives the tree back. This holds for all
layouts without sets or `always` layouts, with any patterns, any number of inputs and introduced variables, as long as no value
format selects a named graph. The names of resources, the lists and the variants are told apart as in C85. -/
theorem C90_optional (c : DeCtx) (laws : XsdLaws c.xsd) (hcl : c.reg.Closed) (hso : c.reg.Sorted)
    (hgraph : ∀ ref l, c.reg ref = some l → ∀ f ∈ l.formats, ∀ p, f.graph ≠ some (some p))
    (hno : c.reg.NoVariantIntro) (hbind : ∀ ref l, c.reg ref = some l → l.Binds)
    (n : Nat) (v : Value) (ref : Term) (o : DeOptions) (ho : ∀ l, (o.order l).Perm l) (quads : List (Quad Term))
    (values : List Term) (h : dehydrate c n v ref o = .ok (quads, values))
    (le : TypedValue Term → TypedValue Term → Bool) (hle : TotalOrder le)
    (ds : List (Quad Term)) (hds : ds.Nodup) (hsub : ∀ q ∈ quads, q ∈ ds)
    (hset : ∀ ref', Reaches c.reg ref ref' → ∀ l, c.reg ref' = some l → l.Settled) (hv : v.Sorted) (hne : v.NoEmptyList)
    (hends : EndsFresh c.reg v o) (hapart : (HyCtx.ofTerms c.reg c.xsd le ds).ToldApart)
    (hun : Unambiguous (HyCtx.ofTerms c.reg c.xsd le ds) none ref values)
    (hab : Absent (HyCtx.ofTerms c.reg c.xsd le ds) none ref values v) :
    ∃ w, w.untype = v ∧ ∃ N, ∀ m, N ≤ m → hydrate (HyCtx.ofTerms c.reg c.xsd le ds) m none ref values = .ok w := by
  obtain ⟨w, he, hN⟩ := C90_sets c laws hcl hso hgraph hno hbind n v ref o ho quads values h le hle ds hds hsub hv hends hapart hun
    (exact_absent n hset hne hab)
  refine ⟨w, (eq_of_sameTree (fun ref' hr l hl => ?_) he).symm, hN⟩
  exact hset ref' hr _ hl

/-- Without optional fields, nothing can be absent. -/
theorem absent_fixed {c : HyCtx Term} {g : Option Term} {ref : Term} {inputs : List Term} {v : Value}
    (hfix : ∀ ref', Reaches c.reg ref ref' → ∀ l, c.reg ref' = some l → l.Fixed) : Absent c g ref inputs v := by
  intro g' ref' inputs' m hf l hl key field hin hopt
  have hr : Reaches c.reg ref ref' := by
    revert hf
    generalize Value.map m = u
    intro hf
    clear hl
    induction hf with
    | here => exact .refl _
    | part _ h1 _ h3 _ _ _ ih =>
      refine .step ih h1 ?_
      cases h3 with
      | field h _ => exact List.mem_map_of_mem (f := fun e => e.2.value) h
      | element _ => simp [Layout.formats]
      | node _ _ => simp [Layout.formats]
      | item h => exact List.mem_map_of_mem (f := fun e => e.value) (List.of_mem_zip h).1
      | variant h => exact List.mem_map_of_mem (f := fun e => e.value) h
  have := hfix ref' hr _ hl _ hin
  rw [hopt] at this
  exact nomatch this

theorem settled_fixed {l : Layout Term} (h : l.Fixed) : l.Settled := by
  cases l <;> first | exact trivial | exact h

/-- **C90.** A tree is written with a layout; other quads may be added to the dataset, or be there before. If nothing is
ambiguous in the dataset — wherever reading may come to, patterns have one match at most — then reading from the
subjects returned gives the tree back. This holds for all layouts without sets, `always` layouts or optional fields, with any
patterns, any number of inputs and introduced variables, as long as no value format selects a named graph. The names of
resources, the lists and the variants are told apart as in C85. -/
theorem C90_read_back (c : DeCtx) (laws : XsdLaws c.xsd) (hcl : c.reg.Closed) (hso : c.reg.Sorted)
    (hgraph : ∀ ref l, c.reg ref = some l → ∀ f ∈ l.formats, ∀ p, f.graph ≠ some (some p))
    (hno : c.reg.NoVariantIntro) (hbind : ∀ ref l, c.reg ref = some l → l.Binds)
    (n : Nat) (v : Value) (ref : Term) (o : DeOptions) (ho : ∀ l, (o.order l).Perm l) (quads : List (Quad Term))
    (values : List Term) (h : dehydrate c n v ref o = .ok (quads, values))
    (le : TypedValue Term → TypedValue Term → Bool) (hle : TotalOrder le)
    (ds : List (Quad Term)) (hds : ds.Nodup) (hsub : ∀ q ∈ quads, q ∈ ds)
    (hfix : ∀ ref', Reaches c.reg ref ref' → ∀ l, c.reg ref' = some l → l.Fixed) (hv : v.Sorted) (hne : v.NoEmptyList)
    (hends : EndsFresh c.reg v o) (hapart : (HyCtx.ofTerms c.reg c.xsd le ds).ToldApart)
    (hun : Unambiguous (HyCtx.ofTerms c.reg c.xsd le ds) none ref values) :
    ∃ w, w.untype = v ∧ ∃ N, ∀ m, N ≤ m → hydrate (HyCtx.ofTerms c.reg c.xsd le ds) m none ref values = .ok w :=
  C90_optional c laws hcl hso hgraph hno hbind n v ref o ho quads values h le hle ds hds hsub
    (fun r hr l hl => settled_fixed (hfix r hr l hl)) hv hne hends hapart hun (absent_fixed hfix)

/-- **C90** (properties with one value). If the patterns of the layouts can be followed from the inputs along properties
that have one value at most in the dataset, nothing is ambiguous: the tree written is read back, if the dataset says
nothing for the optional fields that it does not have. -/
theorem C90_single_valued (c : DeCtx) (laws : XsdLaws c.xsd) (hcl : c.reg.Closed) (hso : c.reg.Sorted) (hwt : c.reg.WellTyped)
    (hgraph : ∀ ref l, c.reg ref = some l → ∀ f ∈ l.formats, ∀ p, f.graph ≠ some (some p))
    (hno : c.reg.NoVariantIntro) (hbind : ∀ ref l, c.reg ref = some l → l.Binds)
    (n : Nat) (v : Value) (ref : Term) (o : DeOptions) (ho : ∀ l, (o.order l).Perm l) (quads : List (Quad Term))
    (values : List Term) (h : dehydrate c n v ref o = .ok (quads, values))
    (le : TypedValue Term → TypedValue Term → Bool) (hle : TotalOrder le)
    (ds : List (Quad Term)) (hds : ds.Nodup) (hsub : ∀ q ∈ quads, q ∈ ds)
    (hset : ∀ ref', Reaches c.reg ref ref' → ∀ l, c.reg ref' = some l → l.Settled) (hv : v.Sorted) (hne : v.NoEmptyList)
    (hends : EndsFresh c.reg v o) (hapart : (HyCtx.ofTerms c.reg c.xsd le ds).ToldApart)
    (hfol : ∀ ref l, c.reg ref = some l → l.Follows (SingleValued ds))
    (hab : Absent (HyCtx.ofTerms c.reg c.xsd le ds) none ref values v) :
    ∃ w, w.untype = v ∧ ∃ N, ∀ m, N ≤ m → hydrate (HyCtx.ofTerms c.reg c.xsd le ds) m none ref values = .ok w := by
  refine C90_optional c laws hcl hso hgraph hno hbind n v ref o ho quads values h le hle ds hds hsub hset hv hne hends hapart
    (unambiguous_follows hwt hfol ?_) hab
  intro l k hl hk
  obtain ⟨l', count, s, f, hl', hc, -, -, -, -, -, rfl⟩ := C14_one_term_per_resource c n v ref o ho quads values h
  rw [show c.reg ref = some l from hl] at hl'
  injection hl' with hl'
  subst hl'
  rw [hk] at hc
  simpa using hc

namespace ReadBackExamples

open KeptExample

theorem reg_noIntro : reg.NoVariantIntro := by
  intro ref l h
  exact absurd rfl (reg_cases (P := fun l => ∀ p, l ≠ .sum p) (by simp) (by simp) (by simp) (by simp) ref _ h l)

theorem reg_binds : ∀ ref l, reg ref = some l → l.Binds := by
  refine reg_cases ?_ ?_ ?_ ?_ <;>
    simp [offer, DeExample.text, DeExample.number, DeExample.rdfList, Layout.Binds, ValueFormat.BoundIn, Pattern.BoundIn, boundVars, patsVars, QuadPat.vars,
      Pattern.vars, DeExample.q, DeExample.val, DeExample.c]

theorem reg_follows : ∀ ref l, reg ref = some l → l.Follows (SingleValued dataset) := by
  refine reg_cases ?_ ?_ ?_ ?_
  · refine ⟨⟨?_, ?_, .inr ⟨_, rfl, ?_⟩, ?_, ?_, .inl ⟨?_, ?_⟩, trivial⟩, ?_⟩
    case refine_3 => unfold SingleValued; decide +kernel
    case refine_8 =>
      simp only [offer, List.mem_cons, List.not_mem_nil, or_false, forall_eq_or_imp, forall_eq]
      refine ⟨⟨?_, ?_, .inr ⟨_, rfl, ?_⟩, trivial⟩, ⟨?_, ?_, .inr ⟨_, rfl, ?_⟩, trivial⟩⟩
      case refine_3 => unfold SingleValued; decide +kernel
      case refine_6 => unfold SingleValued; decide +kernel
      all_goals simp [boundVars, Pattern.BoundIn, DeExample.q, DeExample.c, patsVars, QuadPat.vars, Pattern.vars]
    all_goals simp [Layout.inputCount, offer, Pattern.BoundIn, DeExample.q, DeExample.c, Pattern.vars]
  · exact ⟨trivial, trivial⟩
  · exact ⟨trivial, trivial⟩
  · refine ⟨trivial, ⟨?_, ?_, .inr ⟨_, rfl, ?_⟩, ?_, ?_, .inr ⟨_, rfl, ?_⟩, trivial⟩⟩
    case refine_3 => unfold SingleValued; decide +kernel
    case refine_6 => unfold SingleValued; decide +kernel
    all_goals simp [DeExample.rdfList, boundVars, Pattern.BoundIn, DeExample.q, DeExample.c, patsVars, QuadPat.vars, Pattern.vars]

/-- The offer, with two inputs and introduced variables, is read back from a dataset that says more. -/
example : ∃ w, w.untype = tree ∧ ∃ N, ∀ m, N ≤ m → hydrate (HyCtx.ofTerms reg Example.xsd ReproduceExample.le dataset) m none
    (.iri "offer") [.blank "input0", .blank "input"] = .ok w :=
  C90_single_valued ctx Example.xsd_laws reg_closed reg_sorted reg_wellTyped reg_graph reg_noIntro reg_binds
    4 tree (.iri "offer") DeExample.opts (fun _ => .refl _) quads _ write ReproduceExample.le ReproduceExample.le_total dataset
    (by decide +kernel) (by decide +kernel) (fun ref _ l hl => settled_fixed (reg_fixed ref l hl)) tree_sorted tree_noEmptyList
    KeptExamples.ends_fresh
    (by
      intro ref l hl
      exact absurd rfl (reg_cases (P := fun l => ∀ p, l ≠ .sum p) (by simp) (by simp) (by simp) (by simp) ref _ hl l))
    reg_follows (absent_fixed fun ref _ l hl => reg_fixed ref l hl)

/-- The hypothesis of `C90_read_back` holds too. -/
example : Unambiguous (HyCtx.ofTerms reg Example.xsd ReproduceExample.le dataset) none (.iri "offer")
    [.blank "input0", .blank "input"] := by
  refine unambiguous_follows reg_wellTyped reg_follows ?_
  intro l k hl hk
  have : l = .product offer := by
    have h : reg (.iri "offer") = some l := hl
    simp only [reg, Option.some.injEq] at h
    exact h.symm
  subst this
  simpa [Layout.inputCount, offer] using hk

end ReadBackExamples

namespace OptionalExample

open DeExample (q val c)

/-- An offer made by the first input to the second one, with a price and possibly a note. -/
def offer : ProductLayout Term :=
  { input := 2, intro := 1,
    fields := [
      (.text "note", { intro := 1, value := val "text" 3, dataset := [q (.var 2) (c "note") (.var 3)], required := false }),
      (.text "price", { intro := 1, value := val "number" 3, dataset := [q (.var 2) (c "price") (.var 3)], required := true })],
    dataset := [q (.var 0) (c "offers") (.var 2), q (.var 2) (c "to") (.var 1)] }

/-- The registry. -/
def reg : Registry Term
  | .iri "offer" => some (.product offer)
  | .iri "text" => some (.textString DeExample.text)
  | .iri "number" => some (.number DeExample.number)
  | _ => none

/-- The context. -/
def ctx : DeCtx := { reg, isIri := fun _ => true, xsd := Example.xsd }

/-- An offer without a note. -/
def tree : Value := .map [(.text "price", .literal (.number 1))]

/-- What is written. -/
def quads : List (Quad Term) := [
  ⟨.blank "input0", .iri "offers", .blank "b", none⟩,
  ⟨.blank "b", .iri "to", .blank "input", none⟩,
  ⟨.blank "b", .iri "price", .literal ⟨"1", .any "xsd:decimal"⟩, none⟩]

/-- What is read: there are notes on other resources. -/
def dataset : List (Quad Term) := quads ++ [
  ⟨.blank "input", .iri "offers", .blank "z", none⟩,
  ⟨.blank "z", .iri "note", .literal ⟨"cheap", .any "xsd:string"⟩, none⟩]

theorem write : dehydrate ctx 4 tree (.iri "offer") DeExample.opts = .ok (quads, [.blank "input0", .blank "input"]) := by
  decide +kernel

theorem reg_cases {P : Layout Term → Prop} (h1 : P (.product offer)) (h2 : P (.textString DeExample.text))
    (h3 : P (.number DeExample.number)) : ∀ ref l, reg ref = some l → P l := by
  intro ref l h
  unfold reg at h
  split at h <;> simp only [Option.some.injEq, reduceCtorEq] at h <;> subst h <;> assumption

theorem noSum (ref : Term) (l : SumLayout Term) : reg ref ≠ some (.sum l) :=
  fun h => reg_cases (P := fun l => ∀ p, l ≠ .sum p) (by simp) (by simp) (by simp) ref _ h l rfl

theorem noList (ref : Term) (l : OrderedLayout Term) : reg ref ≠ some (.ordered l) :=
  fun h => reg_cases (P := fun l => ∀ p, l ≠ .ordered p) (by simp) (by simp) (by simp) ref _ h l rfl

theorem noEnds (t : Term) : ¬ reg.EndsLists t := fun ⟨r, l, h, _⟩ => noList r l h

theorem closed : reg.Closed := by
  unfold Registry.Closed
  refine reg_cases ?_ ?_ ?_ <;>
    simp [offer, DeExample.text, DeExample.number, Layout.Closed, PatsBelow, patsVars,
      QuadPat.vars, Pattern.vars, ValueFormat.Below, Pattern.Below, q, val, c]

theorem sorted : reg.Sorted := by
  intro ref l h
  exact reg_cases (P := fun l => ∀ p, l = .product p → SortedKeys p.fields)
    (by rintro p ⟨⟩; unfold SortedKeys; decide +kernel) (by simp) (by simp) ref _ h l rfl

theorem wellTyped : reg.WellTyped := by
  unfold Registry.WellTyped
  refine reg_cases ?_ ?_ ?_ <;>
    simp [offer, DeExample.text, DeExample.number, Layout.formats, val, reg, Layout.inputCount]

theorem follows : ∀ ref l, reg ref = some l → l.Follows (SingleValued dataset) := by
  refine reg_cases ?_ ⟨trivial, trivial⟩ ⟨trivial, trivial⟩
  refine ⟨⟨?_, ?_, .inr ⟨_, rfl, ?_⟩, ?_, ?_, .inl ⟨?_, ?_⟩, trivial⟩, ?_⟩
  case refine_3 => unfold SingleValued; decide +kernel
  case refine_8 =>
    simp only [offer, List.mem_cons, List.not_mem_nil, or_false, forall_eq_or_imp, forall_eq]
    refine ⟨⟨?_, ?_, .inr ⟨_, rfl, ?_⟩, trivial⟩, ⟨?_, ?_, .inr ⟨_, rfl, ?_⟩, trivial⟩⟩
    case refine_3 => unfold SingleValued; decide +kernel
    case refine_6 => unfold SingleValued; decide +kernel
    all_goals simp [boundVars, Pattern.BoundIn, q, c, patsVars, QuadPat.vars, Pattern.vars]
  all_goals simp [Layout.inputCount, offer, Pattern.BoundIn, q, c, Pattern.vars]

/-- There is no note on the offer. -/
theorem absent : Absent (HyCtx.ofTerms reg Example.xsd ReproduceExample.le dataset) none (.iri "offer")
    [.blank "input0", .blank "input"] tree := by
  intro g' ref' inputs' m hf l hl key field hin hopt _ σ τ hσ hτ
  obtain rfl : l = offer := reg_cases (P := fun l' => ∀ p, l' = .product p → p = offer) (by rintro p ⟨⟩; rfl) (by simp) (by simp)
    ref' _ hl l rfl
  have hroot : g' = none ∧ inputs' = [.blank "input0", .blank "input"] := by
    revert hf
    unfold tree
    generalize Value.map m = u
    intro hf
    cases hf with
    | here => exact ⟨rfl, rfl⟩
    | @part _ _ _ _ l' _ _ _ fmt _ _ _ _ _ h1 _ h3 _ _ _ =>
      refine absurd hl ?_
      have hfmt : fmt ∈ l'.formats := by
        cases h3 with
        | field h _ => exact List.mem_map_of_mem (f := fun e => e.2.value) h
        | element _ => simp [Layout.formats]
        | node _ _ => simp [Layout.formats]
        | item h => exact List.mem_map_of_mem (f := fun e => e.value) (List.of_mem_zip h).1
        | variant h => exact List.mem_map_of_mem (f := fun e => e.value) h
      have := reg_cases (P := fun l => ∀ f ∈ l.formats, reg f.layout ≠ some (.product offer))
        (by simp [offer, Layout.formats, val, reg]) (by simp [Layout.formats]) (by simp [Layout.formats]) _ _ h1 fmt hfmt
      exact this
  obtain ⟨rfl, rfl⟩ := hroot
  simp only [offer, List.mem_cons, Prod.mk.injEq, List.not_mem_nil, or_false] at hin
  rcases hin with ⟨-, rfl⟩ | ⟨-, rfl⟩
  · have h0 := hσ.keeps 0 (.blank "input0") rfl
    obtain ⟨q1, hq1, d1⟩ := hσ.sat _ (by simp [inGraph, Layout.own, offer]; exact .inl rfl)
    obtain ⟨q2, hq2, d2⟩ := hτ.sat _ (by simp [inGraph]; rfl)
    have h1 : σ.get 0 = some q1.s ∧ q1.p = .iri "offers" ∧ σ.get 2 = some q1.o := ⟨d1.1, d1.2.1, d1.2.2.1⟩
    have h2 : τ.get 2 = some q2.s ∧ q2.p = .iri "note" := ⟨d2.1, d2.2.1⟩
    have h3 := hτ.keeps 2 _ (get_append_some h1.2.2)
    have key : ∀ q1 ∈ dataset, ∀ q2 ∈ dataset, .blank "input0" = q1.s → q1.p = .iri "offers" → q2.p = .iri "note" → q1.o ≠ q2.s := by
      decide +kernel
    refine key q1 hq1 q2 hq2 ?_ h1.2.1 h2.2 ?_
    · exact Option.some.inj (h0.symm.trans h1.1)
    · exact Option.some.inj (h3.symm.trans h2.1)
  · exact nomatch hopt

/-- The offer without a note is read back. -/
example : ∃ w, w.untype = tree ∧ ∃ N, ∀ m, N ≤ m → hydrate (HyCtx.ofTerms reg Example.xsd ReproduceExample.le dataset) m none
    (.iri "offer") [.blank "input0", .blank "input"] = .ok w := by
  refine C90_single_valued ctx Example.xsd_laws closed sorted wellTyped ?_ (fun ref l h => absurd h (noSum ref l)) ?_
    4 tree (.iri "offer") DeExample.opts (fun _ => .refl _) quads _ write ReproduceExample.le ReproduceExample.le_total dataset
    (by decide +kernel) (by decide +kernel) ?_ ?_ ?_ ?_ (fun ref l h => absurd h (noSum ref l)) follows absent
  · refine reg_cases ?_ ?_ ?_ <;> simp [offer, DeExample.text, DeExample.number, Layout.formats, val]
  · refine reg_cases ?_ ?_ ?_ <;>
      simp [offer, DeExample.text, DeExample.number, Layout.Binds, ValueFormat.BoundIn, Pattern.BoundIn, boundVars,
        patsVars, QuadPat.vars, Pattern.vars, q, val, c]
  · exact fun ref _ => reg_cases (P := Layout.Settled) trivial trivial trivial ref
  · refine .map _ (by unfold SortedKeys; decide +kernel) ?_
    simp only [List.mem_cons, List.not_mem_nil, or_false, forall_eq]
    exact .literal _
  · refine .map _ ?_
    simp only [List.mem_cons, List.not_mem_nil, or_false, forall_eq]
    exact .literal _
  · exact ⟨⟨fun r l h => absurd h (noList r l), fun r l h => absurd h (noList r l), fun _ _ _ _ _ t h => absurd h (noEnds t),
      fun r l h => absurd h (noList r l)⟩, fun t h => absurd h (noEnds t), fun t h => absurd h (noEnds t),
      fun t h => absurd h (noEnds t)⟩

end OptionalExample

namespace Witness

open KeptExample

/-- A second offer of the first input to the second one. -/
def twoOffers : List (Quad Term) := quads ++ [
  ⟨.blank "input0", .iri "offers", .blank "z", none⟩, ⟨.blank "z", .iri "to", .blank "input", none⟩]

/-- The second offer says nothing of its price, yet the first one is not read back: the data is ambiguous. -/
theorem C90_ambiguous :
    (∀ q ∈ quads, q ∈ twoOffers) ∧
    hydrate (HyCtx.ofTerms reg Example.xsd ReproduceExample.le twoOffers) 4 none (.iri "offer")
      [.blank "input0", .blank "input"] = .err (.dataAmbiguity (.discriminant (.iri "offer"))) :=
  ⟨by decide +kernel, by decide +kernel⟩

end Witness

end Verif.Props
