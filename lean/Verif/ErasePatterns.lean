import Verif.Hydrate
import Verif.Dehydrate

/-! # The patterns of text and identifier layouts are never used -/

set_option linter.unusedSectionVars false

namespace Verif

variable {R : Type _} [DecidableEq R]

/-- The layout without its string pattern. -/
def Layout.erasePattern {R : Type _} : Layout R → Layout R
  | .textString l => .textString { l with pattern := none }
  | .id l => .id { l with pattern := none }
  | l => l

/-- The registry whose layouts have lost their string patterns. -/
def Registry.erasePatterns {R : Type _} (reg : Registry R) : Registry R := fun ref => (reg ref).map Layout.erasePattern

@[simp] theorem Layout.inputCount_erasePattern {R : Type _} (l : Layout R) : l.erasePattern.inputCount = l.inputCount := by
  cases l <;> rfl

namespace Hydrate

variable (c : HyCtx R) (reg : Registry R)

theorem variants_reg (rec : Rec R) (graph : Option R) (ref : R) (σ : Subst R) (vs : List (Variant R)) (i : Nat)
    (sel : Option (Nat × TypedValue R)) :
    variants { c with reg } rec graph ref σ i vs sel = variants c rec graph ref σ i vs sel := by
  induction vs generalizing i sel with
  | nil => cases sel <;> rfl
  | cons v vs ih =>
    simp only [variants, ih]
    rfl

theorem fields_reg (rec : Rec R) (graph : Option R) (ref : R) (σ : Subst R) (fs : List (Value × Field R)) :
    fields { c with reg } rec graph ref σ fs = fields c rec graph ref σ fs := by
  induction fs with
  | nil => rfl
  | cons f fs ih =>
    obtain ⟨k, f⟩ := f
    simp only [fields, ih]
    rfl

theorem nodes_reg (rec : Rec R) (graph : Option R) (ref : R) (node : ItemLayout R) (σ : Subst R) (tail : R) (n : Nat)
    (head : R) : nodes { c with reg } rec graph ref node σ tail n head = nodes c rec graph ref node σ tail n head := by
  induction n generalizing head with
  | zero => unfold nodes; rfl
  | succ n ih =>
    unfold nodes
    simp only [ih]
    rfl

theorem sizedItems_reg (rec : Rec R) (graph : Option R) (ref : R) (σ : Subst R) (i : Nat) (is : List (ItemLayout R)) :
    sizedItems { c with reg } rec graph ref σ i is = sizedItems c rec graph ref σ i is := by
  induction is generalizing i with
  | nil => rfl
  | cons v vs ih =>
    simp only [sizedItems, ih]
    rfl

theorem unorderedItems_reg (rec : Rec R) (graph : Option R) (fmt : ValueFormat R) (n : Nat) (st : Matching.Stack R) :
    unorderedItems { c with reg } rec graph fmt n st = unorderedItems c rec graph fmt n st := by
  induction n generalizing st with
  | zero => rfl
  | succ n ih => simp only [unorderedItems, ih]

theorem layout_erase (rec : Rec R) (n : Nat) (graph : Option R) (ref : R) (inputs : List R) (l : Layout R) :
    layout { c with reg } rec n graph ref inputs l.erasePattern = layout c rec n graph ref inputs l := by
  cases l with
  | sum l => simp only [Layout.erasePattern, layout, variants_reg]; rfl
  | product l => simp only [Layout.erasePattern, layout, fields_reg]; rfl
  | unordered l => simp only [Layout.erasePattern, layout, unorderedItems_reg]; rfl
  | ordered l => simp only [Layout.erasePattern, layout, nodes_reg]; rfl
  | sized l => simp only [Layout.erasePattern, layout, sizedItems_reg]; rfl
  | _ => rfl

theorem hydrate_erase (n : Nat) : hydrate { c with reg := c.reg.erasePatterns } n = hydrate c n := by
  induction n with
  | zero => rfl
  | succ n ih =>
    funext g ref ins
    unfold hydrate
    simp only [Registry.erasePatterns]
    cases hl : c.reg ref with
    | none => rfl
    | some l =>
      simp only [Option.map_some, Layout.inputCount_erasePattern]
      split
      · rfl
      · rw [← layout_erase c c.reg.erasePatterns, ← ih]

end Hydrate

namespace Dehydrate

theorem layout_erase (c : DeCtx) (reg : Registry Term) (rec : Rec) (v : Value) (graph : Option IRes) (ref : Term)
    (inputs : List IRes) (l : Layout Term) :
    layout { c with reg } rec v graph ref inputs l.erasePattern = layout c rec v graph ref inputs l := by
  cases l <;> rfl

theorem dehydrateWith_erase (c : DeCtx) (n : Nat) :
    dehydrateWith { c with reg := c.reg.erasePatterns } n = dehydrateWith c n := by
  induction n with
  | zero => rfl
  | succ n ih =>
    funext v g ref ins
    unfold dehydrateWith
    simp only [Registry.erasePatterns]
    cases hl : c.reg ref with
    | none => rfl
    | some l =>
      simp only [Option.map_some, Layout.inputCount_erasePattern]
      split
      · rfl
      · rw [← layout_erase c c.reg.erasePatterns, ← ih]

end Dehydrate

end Verif
