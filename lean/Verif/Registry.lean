import Verif.Hydrate
import Verif.Dehydrate
import Verif.HydrateSpec

/-!
# Layout registries and dependencies

Models `layouts/src/lib.rs` (`LayoutRegistry`, `LayoutRegistryUnion`) and `layouts/src/layout/mod.rs`
(`visit_dependencies`, `dependencies`).
-/

set_option linter.unusedSectionVars false
set_option linter.unusedSimpArgs false

namespace Verif

variable {R : Type _}

/-! ## Registries -/

namespace Registry

/-- `LayoutRegistryUnion(a, b)`. `layouts/src/lib.rs` L354-362. -/
def union (a b : Registry R) : Registry R := fun id => (b id).or (a id)

/-- `LayoutRegistry::with` and `into_with`. `layouts/src/lib.rs` L169-182. -/
def including (self other : Registry R) : Registry R := union other self

/-- `LayoutRegistry for Option<T>`. `layouts/src/lib.rs` L195-203. -/
def optional (r : Option (Registry R)) : Registry R := fun id => r.bind fun r => r id

/-- `LayoutRegistry::contains`. `layouts/src/lib.rs` L164-167. The implementation for `Option<T>` (L200-202) is the same
function. -/
def contains (r : Registry R) (id : R) : Bool := (r id).isSome

end Registry

/-! ## Dependencies -/

/-- `visit_dependencies`: the references, in the order in which they are visited. `layouts/src/layout/mod.rs` L130-139,
`product.rs` L37-41, `sum.rs` L35-39, `list/mod.rs` L32-38, L83-85, `list/ordered.rs` L35-37, `list/sized.rs` L30-34,
`list/unordered.rs` L30-32. -/
def Layout.visitDependencies : Layout R → List R
  | .product l => l.fields.map fun f => f.2.value.layout
  | .unordered l => [l.item.value.layout]
  | .ordered l => [l.node.value.layout]
  | .sized l => l.items.map fun i => i.value.layout
  | .sum l => l.variants.map fun v => v.value.layout
  | _ => []

/-- `Vec::dedup`: removes consecutive repetitions. -/
def dedupAdjacent [DecidableEq R] : List R → List R
  | [] => []
  | [a] => [a]
  | a :: b :: l => if a = b then dedupAdjacent (b :: l) else a :: dedupAdjacent (b :: l)

/-- `dependencies`. `layouts/src/layout/mod.rs` L145-158. -/
def Layout.dependencies [DecidableEq R] (le : R → R → Bool) (l : Layout R) : List R :=
  dedupAdjacent (sortBy le l.visitDependencies)

/-! ## Specification -/

/-- The layout mentions a reference: one of its parts is given a value of that layout. -/
inductive Layout.Mentions : Layout R → R → Prop
  | field {l : ProductLayout R} {k : Value} {f : Field R} : (k, f) ∈ l.fields → Mentions (.product l) f.value.layout
  | variant {l : SumLayout R} {v : Variant R} : v ∈ l.variants → Mentions (.sum l) v.value.layout
  | unorderedItem {l : UnorderedLayout R} : Mentions (.unordered l) l.item.value.layout
  | node {l : OrderedLayout R} : Mentions (.ordered l) l.node.value.layout
  | sizedItem {l : SizedLayout R} {i : ItemLayout R} : i ∈ l.items → Mentions (.sized l) i.value.layout

/-- The references that can be reached from a reference by following the layouts of the registry. -/
inductive Registry.Reaches (reg : Registry R) : R → R → Prop
  | refl (r : R) : Reaches reg r r
  | step {r r' r'' : R} {l : Layout R} : reg r = some l → l.Mentions r' → Reaches reg r' r'' → Reaches reg r r''

/-! ## Lemmas -/

theorem mem_visitDependencies (l : Layout R) (r : R) : r ∈ l.visitDependencies ↔ l.Mentions r := by
  constructor
  · intro h
    cases l <;> simp only [Layout.visitDependencies, List.mem_map, List.mem_cons, List.not_mem_nil, or_false] at h
    · obtain ⟨⟨k, f⟩, hf, rfl⟩ := h
      exact .field hf
    · subst h
      exact .unorderedItem
    · subst h
      exact .node
    · obtain ⟨i, hi, rfl⟩ := h
      exact .sizedItem hi
    · obtain ⟨v, hv, rfl⟩ := h
      exact .variant hv
  · intro h
    cases h with
    | field h => exact List.mem_map.2 ⟨_, h, rfl⟩
    | variant h => exact List.mem_map.2 ⟨_, h, rfl⟩
    | unorderedItem => simp [Layout.visitDependencies]
    | node => simp [Layout.visitDependencies]
    | sizedItem h => exact List.mem_map.2 ⟨_, h, rfl⟩

theorem mem_dedupAdjacent [DecidableEq R] (l : List R) (r : R) : r ∈ dedupAdjacent l ↔ r ∈ l := by
  induction l with
  | nil => simp [dedupAdjacent]
  | cons a l ih =>
    cases l with
    | nil => simp [dedupAdjacent]
    | cons b l =>
      unfold dedupAdjacent
      split
      · subst_vars
        rw [ih]
        simp
      · rw [List.mem_cons, ih, List.mem_cons (a := r) (b := a)]

theorem pairwise_dedupAdjacent [DecidableEq R] {le : R → R → Bool} (ht : TotalOrder le) (l : List R)
    (h : l.Pairwise fun a b => le a b = true) :
    (dedupAdjacent l).Pairwise fun a b => le a b = true ∧ a ≠ b := by
  induction l with
  | nil => simp [dedupAdjacent]
  | cons a l ih =>
    cases l with
    | nil => simp [dedupAdjacent]
    | cons b l =>
      have h' := List.pairwise_cons.1 h
      unfold dedupAdjacent
      split
      · exact ih h'.2
      · rename_i hab
        refine List.pairwise_cons.2 ⟨fun x hx => ?_, ih h'.2⟩
        have hx := (mem_dedupAdjacent _ _).1 hx
        refine ⟨h'.1 x hx, fun hax => ?_⟩
        subst hax
        rcases List.mem_cons.1 hx with hx | hx
        · exact hab hx
        · have h1 := h'.1 b (by simp)
          have h2 := (List.pairwise_cons.1 h'.2).1 a hx
          exact hab (ht.antisymm _ _ h1 h2)

end Verif
