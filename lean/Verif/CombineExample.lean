import Verif.RereadExample
import Verif.Props.Compact
import Verif.CombineSpec

/-! # The documents of `layouts/examples/combine.rs`, used to show that the hypotheses of C83 and C84 can be met -/

set_option linter.unusedSimpArgs false

namespace Verif.CombineExample

open DeExample TreeExample Dehydrate

/-- A record whose fields are properties of the same name. -/
def record (fields : List (Value × Field Term)) : ProductLayout Term := { input := 1, intro := 0, dataset := [], fields }

/-- Yes or no. -/
def flag : DataLayout Term := { input := 1, intro := 0, dataset := [], resource := .var 0, datatype := .iri "xsd:boolean" }

/-- The layouts of the example, and one with the fields of the two results. `layouts/examples/combine.rs` L27-100 -/
def reg : Registry Term
  | .iri "nestedResult" => some (.product (record [link "nested" "nested" true]))
  | .iri "nested" => some (.product (record [link "number" "egg" true]))
  | .iri "unnestedResult" => some (.product (record [link "unnested" "unnested" true]))
  | .iri "unnested" => some (.product (record [link "flag" "bird" true]))
  | .iri "number" => some (.number number)
  | .iri "flag" => some (.boolean flag)
  | .iri "both" => some (.product (record [link "nested" "nested" true, link "unnested" "unnested" true]))
  | .iri "output" => some (.product (record [
      (.text "bird", { intro := 2, value := ⟨.iri "flag", [.var 2], none⟩, required := true,
                       dataset := [q (.var 0) (DeExample.c "unnested") (.var 1), q (.var 1) (DeExample.c "bird") (.var 2)] }),
      link "nested" "nested" true]))
  | _ => none

/-- The context. -/
def ctx : DeCtx := { reg, isIri := fun _ => true, xsd := Example.xsd }

/-- The default options, with a generator that has already been used `k` times. -/
def after (k : Nat) : DeOptions := { DeOptions.default id with generator := fun i => .blank (toString (k + i)) }

/-- The first document. -/
def egg : Value := .map [(.text "nested", .map [(.text "egg", .literal (.number 1))])]

/-- The second document. -/
def bird : Value := .map [(.text "unnested", .map [(.text "bird", .literal (.boolean true))])]

/-- The documents, written with one generator. -/
def eggDoc : Document := ⟨ctx, after 0, .iri "nestedResult", 6, egg,
  [⟨.blank "input0", .iri "nested", .blank "0", none⟩, ⟨.blank "0", .iri "egg", .literal ⟨"1", .any "xsd:decimal"⟩, none⟩],
  [.blank "input0"]⟩

/-- See `eggDoc`. -/
def birdDoc : Document := ⟨ctx, after 1, .iri "unnestedResult", 6, bird,
  [⟨.blank "input0", .iri "unnested", .blank "1", none⟩, ⟨.blank "1", .iri "bird", .literal ⟨"true", .any "xsd:boolean"⟩, none⟩],
  [.blank "input0"]⟩

theorem after_blank (k : Nat) : BlankNames (after k) where
  generator i := ⟨_, rfl⟩
  input := ⟨_, rfl⟩
  injective i j h := by
    simp only [after, Term.blank.injEq] at h
    have := Nat.repr_injective h
    omega
  input_ne i := (Props.default_blank_names id).input_ne (k + i)

theorem uses_link {reg : Registry Term} {layout name : String} {b : Bool} {p : Term} (h : (link layout name b).2.Uses reg p) :
    p = .iri name := by
  rcases h with h | h
  · have := h.2.1
    simp only [link, q, DeExample.c, linkPat, List.cons.injEq, Quad.mk.injEq, Pattern.res.injEq] at this
    exact this.1.2.1.symm
  · simp [Field.OnSelf, link] at h

/-- A record of properties with different names is written as a tree. -/
theorem record_tree (reg : Registry Term) (fields : List (String × String × Bool)) (h : (fields.map fun f => f.2.1).Nodup) :
    (record (fields.map fun f => link f.1 f.2.1 f.2.2)).Tree reg where
  input := rfl
  intro := rfl
  const := by simp [record, ConstPats]
  fields := by
    simp only [record, List.mem_map, forall_exists_index, and_imp, forall_apply_eq_imp_iff₂]
    exact fun f _ => .inl ⟨_, .inl (isLink ..)⟩
  required := by
    simp only [record, List.mem_map, forall_exists_index, and_imp, forall_apply_eq_imp_iff₂]
    exact fun f _ h => by simp [Field.OnSelf, link] at h
  distinct := by
    simp only [record, List.pairwise_map]
    refine (List.pairwise_map.1 h).imp fun {a b} hne p h1 h2 => hne ?_
    have := (uses_link h1).symm.trans (uses_link h2)
    simpa using this
  other := by simp [record]
  oneId := by
    simp only [record, List.pairwise_map]
    exact List.pairwise_iff_getElem.2 fun _ _ _ _ _ h => by simp [Field.IsId, Field.OnSelf, link] at h

theorem tree_of (ref : Term) (l : Layout Term) (h : reg ref = some l) (hne : ref ≠ .iri "output") : l.Tree reg Example.xsd := by
  unfold reg at h
  split at h <;> simp only [Option.some.injEq, reduceCtorEq] at h <;> subst h
  · exact record_tree reg [("nested", "nested", true)] (by decide)
  · exact record_tree reg [("number", "egg", true)] (by decide)
  · exact record_tree reg [("unnested", "unnested", true)] (by decide)
  · exact record_tree reg [("flag", "bird", true)] (by decide)
  · exact ⟨⟨rfl, rfl, rfl⟩, _, rfl, by simp [Example.xsd]⟩
  · exact ⟨⟨rfl, rfl, rfl⟩, rfl⟩
  · exact record_tree reg [("nested", "nested", true), ("unnested", "unnested", true)] (by decide)
  · exact absurd rfl hne

theorem reaches_of_closed {ref : Term} (S : List Term) (hr : ref ∈ S)
    (h : ∀ r ∈ S, ∀ l, reg r = some l → ∀ f ∈ l.formats, f.layout ∈ S) (ref' : Term) (h' : Reaches reg ref ref') : ref' ∈ S := by
  induction h' with
  | refl => exact hr
  | step _ hl hf ih => exact h _ ih _ hl _ hf

theorem egg_reaches (ref : Term) (h : Reaches reg (.iri "nestedResult") ref) :
    ref ∈ [Term.iri "nestedResult", .iri "nested", .iri "number"] := by
  refine reaches_of_closed _ (by simp) ?_ ref h
  simp only [List.mem_cons, List.not_mem_nil, or_false, forall_eq_or_imp, forall_eq, reg, Option.some.injEq, forall_eq']
  simp [Layout.formats, record, link, val]

theorem bird_reaches (ref : Term) (h : Reaches reg (.iri "unnestedResult") ref) :
    ref ∈ [Term.iri "unnestedResult", .iri "unnested", .iri "flag"] := by
  refine reaches_of_closed _ (by simp) ?_ ref h
  simp only [List.mem_cons, List.not_mem_nil, or_false, forall_eq_or_imp, forall_eq, reg, Option.some.injEq, forall_eq']
  simp [Layout.formats, record, link, val]

theorem egg_trees : TreeLayouts reg Example.xsd (.iri "nestedResult") := by
  intro ref h
  have := egg_reaches ref h
  simp only [List.mem_cons, List.not_mem_nil, or_false] at this
  rcases this with rfl | rfl | rfl
  · exact ⟨_, rfl, tree_of (.iri "nestedResult") _ rfl (by simp)⟩
  · exact ⟨_, rfl, tree_of (.iri "nested") _ rfl (by simp)⟩
  · exact ⟨_, rfl, tree_of (.iri "number") _ rfl (by simp)⟩

theorem bird_trees : TreeLayouts reg Example.xsd (.iri "unnestedResult") := by
  intro ref h
  have := bird_reaches ref h
  simp only [List.mem_cons, List.not_mem_nil, or_false] at this
  rcases this with rfl | rfl | rfl
  · exact ⟨_, rfl, tree_of (.iri "unnestedResult") _ rfl (by simp)⟩
  · exact ⟨_, rfl, tree_of (.iri "unnested") _ rfl (by simp)⟩
  · exact ⟨_, rfl, tree_of (.iri "flag") _ rfl (by simp)⟩

theorem reg_sorted : reg.Sorted := by
  intro ref l h
  unfold reg at h
  split at h <;> simp only [Option.some.injEq, reduceCtorEq, Layout.product.injEq] at h <;> subst h <;> unfold SortedKeys <;>
    decide +kernel

theorem reg_closed : reg.Closed := by
  intro ref l h
  unfold reg at h
  split at h <;> simp only [Option.some.injEq, reduceCtorEq, Layout.product.injEq] at h <;> subst h <;>
    simp [record, link, flag, number, Layout.Closed, PatsBelow, patsVars, QuadPat.vars, Pattern.vars, ValueFormat.Below,
      Pattern.Below, q, val, DeExample.c]
  omega

theorem egg_recoverable : Recoverable reg (.iri "nestedResult") egg := by
  refine .product _ rfl ?_
  intro k v f hv hf
  simp only [List.mem_singleton, Prod.mk.injEq, record, link] at hv hf
  obtain ⟨-, rfl⟩ := hv
  obtain ⟨-, rfl⟩ := hf
  refine .product (l := record [link "number" "egg" true]) _ rfl ?_
  intro k v f hv hf
  simp only [List.mem_singleton, Prod.mk.injEq, record, link] at hv hf
  obtain ⟨-, rfl⟩ := hf
  exact .leaf _ (by simp [val, reg, Layout.formats])

theorem bird_recoverable : Recoverable reg (.iri "unnestedResult") bird := by
  refine .product _ rfl ?_
  intro k v f hv hf
  simp only [List.mem_singleton, Prod.mk.injEq, record, link] at hv hf
  obtain ⟨-, rfl⟩ := hv
  obtain ⟨-, rfl⟩ := hf
  refine .product (l := record [link "flag" "bird" true]) _ rfl ?_
  intro k v f hv hf
  simp only [List.mem_singleton, Prod.mk.injEq, record, link] at hv hf
  obtain ⟨-, rfl⟩ := hf
  exact .leaf _ (by simp [val, reg, Layout.formats])

theorem single_sorted {k k' : Value} {l : Literal} : (Value.map [(k, .map [(k', .literal l)])]).Sorted := by
  refine .map _ (by simp [SortedKeys]) ?_
  simp only [List.mem_singleton, forall_eq]
  refine .map _ (by simp [SortedKeys]) ?_
  simp only [List.mem_singleton, forall_eq]
  exact .literal _

theorem egg_written : eggDoc.Written :=
  ⟨Example.xsd_laws, reg_sorted, after_blank 0, fun _ => .refl _, egg_trees, single_sorted, egg_recoverable, by decide +kernel,
    by decide +kernel⟩

theorem bird_written : birdDoc.Written :=
  ⟨Example.xsd_laws, reg_sorted, after_blank 1, fun _ => .refl _, bird_trees, single_sorted, bird_recoverable, by decide +kernel,
    by decide +kernel⟩

theorem egg_properties (p : Term) (h : UsesProperty reg (.iri "nestedResult") p) : p = .iri "nested" ∨ p = .iri "egg" := by
  obtain ⟨ref, l, hr, hl, pat, hp, e⟩ := h
  have := egg_reaches ref hr
  simp only [List.mem_cons, List.not_mem_nil, or_false] at this
  rcases this with rfl | rfl | rfl <;> simp only [reg, Option.some.injEq] at hl <;> subst hl <;>
    simp [Layout.patterns, record, link, number, q, DeExample.c] at hp <;> subst hp <;> simp at e <;> simp [← e]

theorem bird_properties (p : Term) (h : UsesProperty reg (.iri "unnestedResult") p) : p = .iri "unnested" ∨ p = .iri "bird" := by
  obtain ⟨ref, l, hr, hl, pat, hp, e⟩ := h
  have := bird_reaches ref hr
  simp only [List.mem_cons, List.not_mem_nil, or_false] at this
  rcases this with rfl | rfl | rfl <;> simp only [reg, Option.some.injEq] at hl <;> subst hl <;>
    simp [Layout.patterns, record, link, flag, q, DeExample.c] at hp <;> subst hp <;> simp at e <;> simp [← e]

theorem both_joins : reg.Joins (.iri "both") (record [link "nested" "nested" true, link "unnested" "unnested" true])
    [.iri "nestedResult", .iri "unnestedResult"] where
  layout := rfl
  nonempty := by simp
  records := by
    simp only [List.mem_cons, List.not_mem_nil, or_false, forall_eq_or_imp, forall_eq]
    exact ⟨⟨_, rfl, rfl, rfl⟩, ⟨_, rfl, rfl, rfl⟩⟩
  intro := rfl
  dataset q := by
    simp only [List.mem_cons, List.not_mem_nil, or_false, exists_eq_or_imp, exists_eq_left, reg, Option.some.injEq,
      Layout.product.injEq, exists_eq_left']
    simp [record]
  fields e := by
    simp only [List.mem_cons, List.not_mem_nil, or_false, exists_eq_or_imp, exists_eq_left, reg, Option.some.injEq,
      Layout.product.injEq, exists_eq_left']
    simp [record]

end Verif.CombineExample
