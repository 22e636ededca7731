import Verif.RoundTripSpec
import Verif.RenameSpec

/-!
# Specifications for writing back what was read

A tree is read from a dataset, then written with the same layouts. The dataset written is compared to the dataset read.
-/

namespace Verif

/-- `WrittenAs x u t`: the term `u`, once read, is written as `t`: literals of a boolean or decimal type may be written
differently (`1.0`, then `1`), every other term is written as it is. -/
inductive WrittenAs (x : Xsd) : Term → Term → Prop
  | same (t : Term) : WrittenAs x t t
  | boolean {text : String} {b : Bool} : x.parseBoolean text = some b →
      WrittenAs x (.literal ⟨text, .any x.boolean⟩) (.literal ⟨x.printBoolean b, .any x.boolean⟩)
  | number {text text' type : String} {q : Rat} : x.isDecimal type = true → x.parseDecimal text = some q →
      x.printDecimal q = some text' → WrittenAs x (.literal ⟨text, .any type⟩) (.literal ⟨text', .any type⟩)

/-- The layout turns the value down without writing anything: the value is not of the right kind, or the layout is a sum
that states nothing, and whose variants all turn it down without writing anything. -/
inductive Declines (reg : Registry Term) : Term → Value → Prop
  | kind {ref l v} : reg ref = some l → l.rejects v = true → Declines reg ref v
  | sum {ref l v} : reg ref = some (.sum l) → l.dataset = [] → (∀ x ∈ l.variants, Declines reg x.value.layout v) →
      Declines reg ref v

/-- At each sum, the variants that were not selected turn the value down without writing anything. -/
inductive WellDecided (reg : Registry Term) : TypedValue Term → Prop
  | literal (l : TypedLiteral Term) : WellDecided reg (.literal l)
  | always (v : Value) : WellDecided reg (.always v)
  | map {m ref} : (∀ e ∈ m, WellDecided reg e.2) → WellDecided reg (.map m ref)
  | list {vs ref} : (∀ v ∈ vs, WellDecided reg v) → WellDecided reg (.list vs ref)
  | variant {v ref i l} : reg ref = some (.sum l) → WellDecided reg v →
      (∀ j x, l.variants[j]? = some x → j ≠ i → Declines reg x.value.layout v.untype) →
      WellDecided reg (.variant v ref i)

/-- A variable that a layout introduces for its parts (fields, items, variants) occurs in the patterns of the layout
itself. -/
def Layout.BindsIntro {R : Type _} : Layout R → Prop
  | .product l => ∀ x, l.input ≤ x → x < l.input + l.intro → x ∈ patsVars l.dataset
  | .unordered l => ∀ x, l.input ≤ x → x < l.input + l.intro → x ∈ patsVars l.dataset
  | .ordered l => ∀ x, l.input ≤ x → x < l.input + l.intro → x ∈ patsVars l.dataset
  | .sized l => ∀ x, l.input ≤ x → x < l.input + l.intro → x ∈ patsVars l.dataset
  | .sum l => ∀ x, l.input ≤ x → x < l.input + l.intro → x ∈ patsVars l.dataset
  | _ => True

/-- Every layout binds the variables it introduces for its parts, and no part is described in a graph of its own. -/
structure Registry.Reversible (reg : Registry Term) : Prop where
  binds : ∀ ref l, reg ref = some l → l.BindsIntro
  graph : ∀ ref l, reg ref = some l → ∀ f ∈ l.formats, ∀ p, f.graph ≠ some (some p)

/-- The names given by the options are all different. -/
structure DistinctNames (o : Dehydrate.DeOptions) : Prop where
  generator : ∀ i j, o.generator i = o.generator j → i = j
  input : ∀ i j, o.inputTerm i = o.inputTerm j → i = j
  ne : ∀ i j, o.generator i ≠ o.inputTerm j

/-- The term `t` that was written comes from the term `u` that was read: it is how `u` is written, or it is a generated
name, and stands for `u = b t`. -/
def Origin (x : Xsd) (o : Dehydrate.DeOptions) (b : Term → Term) (t u : Term) : Prop :=
  WrittenAs x u t ∨ u = b t ∧ ∃ i, t = o.generator i ∨ t = o.inputTerm i

/-- The quads correspond, component by component. -/
def Quad.Rel {R S : Type _} (P : R → S → Prop) (q : Quad R) (q' : Quad S) : Prop :=
  P q.s q'.s ∧ P q.p q'.p ∧ P q.o q'.o ∧
    match q.g, q'.g with
    | none, none => True
    | some g, some g' => P g g'
    | _, _ => False

/-- Reading the term and writing it gives the same term. -/
def Canonical (x : Xsd) (u : Term) : Prop := ∀ t, WrittenAs x u t → t = u

/-- The term is written as it was read, or renamed if its name was generated. -/
def Renamed (o : Dehydrate.DeOptions) (b : Term → Term) (t u : Term) : Prop :=
  u = t ∨ u = b t ∧ ∃ i, t = o.generator i ∨ t = o.inputTerm i

end Verif
