import Verif.ReproduceSpec
import Verif.RoundTripExample
import Verif.Order

/-! # Datasets that are read, then written back, used to show that the hypotheses of the theorems can be met -/

set_option linter.unusedSimpArgs false

namespace Verif.ReproduceExample

open DeExample Dehydrate

/-- An encoding of terms, used to sort trees. -/
def termCode : Term → List Rat
  | .iri s => 0 :: encString s
  | .blank s => 1 :: encString s
  | .literal ⟨v, .any i⟩ => 2 :: (encString v ++ encString i)
  | .literal ⟨v, .langString t⟩ => 3 :: (encString v ++ encString t)

theorem prefixFree_term : PrefixFree termCode := by
  intro a b s t e
  rcases a with a | a | ⟨a, a' | a'⟩ <;> rcases b with b | b | ⟨b, b' | b'⟩ <;>
    simp only [termCode, List.cons_append, List.append_assoc, List.cons.injEq] at e
  · obtain ⟨rfl, rfl⟩ := prefixFree_string _ _ _ _ e.2; exact ⟨rfl, rfl⟩
  all_goals first | exact absurd e.1 (by decide) | skip
  · obtain ⟨rfl, rfl⟩ := prefixFree_string _ _ _ _ e.2; exact ⟨rfl, rfl⟩
  · obtain ⟨rfl, e'⟩ := prefixFree_string _ _ _ _ e.2
    obtain ⟨rfl, rfl⟩ := prefixFree_string _ _ _ _ e'; exact ⟨rfl, rfl⟩
  · obtain ⟨rfl, e'⟩ := prefixFree_string _ _ _ _ e.2
    obtain ⟨rfl, rfl⟩ := prefixFree_string _ _ _ _ e'; exact ⟨rfl, rfl⟩

/-- The order of the trees. -/
def le : TypedValue Term → TypedValue Term → Bool := TypedValue.le termCode

theorem le_total : TotalOrder le := TypedValue.le_totalOrder prefixFree_term

/-- Names. -/
def opts : DeOptions :=
  { inputCount := some 1
    inputTerm := fun i => .blank (String.ofList (List.replicate (i + 1) 'i'))
    generator := fun i => .blank (String.ofList (List.replicate (i + 1) 'b'))
    order := id }

theorem opts_distinct : DistinctNames opts where
  generator i j h := by
    simp only [opts, Term.blank.injEq, String.ofList_inj] at h
    simpa using congrArg List.length h
  input i j h := by
    simp only [opts, Term.blank.injEq, String.ofList_inj] at h
    simpa using congrArg List.length h
  ne i j h := by
    simp only [opts, Term.blank.injEq, String.ofList_inj] at h
    simp [List.replicate_succ] at h

theorem name_blank {t : Term} (h : ∃ i, t = opts.generator i ∨ t = opts.inputTerm i) : ∃ s, t = .blank s := by
  obtain ⟨i, rfl | rfl⟩ := h <;> exact ⟨_, rfl⟩

/-- A decimal number may be written `1.0`. -/
def xsd : Xsd :=
  { Example.xsd with parseDecimal := fun s => if s = "1" ∨ s = "1.0" then some 1 else if s = "0" then some 0 else none }

/-- The same layouts as in the examples of sums. -/
def ctx : DeCtx := { reg := SumExample.reg, isIri := fun _ => true, xsd }

/-- A decimal number. -/
def decimal (s : String) : Term := .literal ⟨s, .any "xsd:decimal"⟩

/-- A list where the same circle occurs twice. The colour of the circle is unknown to the layouts. -/
def circles (radius : Term) : List (Quad Term) :=
  [⟨.blank "l1", .iri "first", .iri "c", none⟩, ⟨.blank "l1", .iri "rest", .blank "l2", none⟩,
   ⟨.blank "l2", .iri "first", .iri "c", none⟩, ⟨.blank "l2", .iri "rest", .iri "nil", none⟩,
   ⟨.iri "c", .iri "type", .iri "Circle", none⟩, ⟨.iri "c", .iri "radius", radius, none⟩,
   ⟨.iri "c", .iri "color", .iri "red", none⟩]

/-- The circle that is read. -/
def circle : TypedValue Term :=
  .variant (.map [(.text "radius", .literal (.number 1 (.iri "number")))] (.iri "circle")) (.iri "figure") 0

/-- The list that is read. -/
def list : TypedValue Term := .list [circle, circle] (.iri "figures")

theorem read_circles : Hydrate.hydrate (HyCtx.ofTerms ctx.reg ctx.xsd le (circles (decimal "1.0"))) 9 none (.iri "figures")
    [.blank "l1"] = .ok list := by decide +kernel

theorem read_circles' : Hydrate.hydrate (HyCtx.ofTerms SumExample.ctx.reg SumExample.ctx.xsd le (circles (decimal "1"))) 9 none
    (.iri "figures") [.blank "l1"] = .ok list := by decide +kernel

/-- What is written: two circles, named apart. -/
def written : List (Quad Term) :=
  [⟨.blank "i", .iri "first", .blank "b", none⟩, ⟨.blank "i", .iri "rest", .blank "bb", none⟩,
   ⟨.blank "b", .iri "radius", decimal "1", none⟩, ⟨.blank "b", .iri "type", .iri "Circle", none⟩,
   ⟨.blank "bb", .iri "first", .blank "bbb", none⟩, ⟨.blank "bb", .iri "rest", .iri "nil", none⟩,
   ⟨.blank "bbb", .iri "radius", decimal "1", none⟩, ⟨.blank "bbb", .iri "type", .iri "Circle", none⟩]

theorem write_circles : dehydrate ctx 9 list.untype (.iri "figures") opts = .ok (written, [.blank "i"]) := by decide +kernel

theorem write_circles' : dehydrate SumExample.ctx 9 list.untype (.iri "figures") opts = .ok (written, [.blank "i"]) := by
  decide +kernel

theorem reg_closed : SumExample.reg.Closed := by
  unfold Registry.Closed
  refine SumExample.reg_cases ?_ ?_ ?_ ?_ ?_ ?_ ?_ <;>
    simp [SumExample.figures, SumExample.figure, SumExample.circle, SumExample.square, SumExample.blank, TreeExample.link, text,
      number, Layout.Closed, ItemLayout.Closed, PatsBelow, patsVars, QuadPat.vars, Pattern.vars, ValueFormat.Below, Pattern.Below,
      q, val, c]

theorem reg_distinctKeys : SumExample.reg.DistinctKeys := by
  intro ref l h
  have := SumExample.reg_cases (P := fun l => ∀ p, l = .product p → (p.fields.map Prod.fst).Nodup) (by simp) (by simp)
    (by rintro p ⟨⟩; decide +kernel) (by rintro p ⟨⟩; decide +kernel) (by simp) (by simp) (by simp) ref _ h
  exact this l rfl

theorem reg_reversible : SumExample.reg.Reversible where
  binds := by
    refine SumExample.reg_cases ?_ ?_ ?_ ?_ ?_ ?_ ?_ <;>
      simp [Layout.BindsIntro, SumExample.figures, SumExample.figure, SumExample.circle, SumExample.square] <;> omega
  graph := by
    refine SumExample.reg_cases ?_ ?_ ?_ ?_ ?_ ?_ ?_ <;>
      simp [Layout.formats, SumExample.figures, SumExample.figure, SumExample.circle, SumExample.square, TreeExample.link, val]

theorem reg_wellTyped : SumExample.reg.WellTyped := by
  unfold Registry.WellTyped
  refine SumExample.reg_cases ?_ ?_ ?_ ?_ ?_ ?_ ?_ <;>
    simp [SumExample.figures, SumExample.figure, SumExample.circle, SumExample.square, SumExample.blank, TreeExample.link, text,
      number, Layout.formats, val, SumExample.reg, Layout.inputCount]

theorem reg_acyclicSums : SumExample.reg.AcyclicSums := by
  refine ⟨fun t => if t = .iri "figure" then 1 else 0, fun ref l h => ?_⟩
  unfold SumExample.reg at h
  split at h <;> simp only [Option.some.injEq, reduceCtorEq] at h
  simp only [Layout.sum.injEq] at h
  subst h
  simp [SumExample.figure, val]

theorem ctx_supported : SumExample.ctx.Supported := by
  unfold DeCtx.Supported
  refine SumExample.reg_cases ?_ ?_ ?_ ?_ ?_ ?_ ?_ <;>
    simp [Layout.Supported, SumExample.ctx, text, number, Example.xsd]

theorem circle_decided : WellDecided SumExample.reg circle := by
  refine .variant (l := SumExample.figure) rfl (.map ?_) ?_
  · simp only [List.mem_singleton, forall_eq]
    exact .literal _
  · intro j x hx hj
    match j, hx, hj with
    | 0, _, hj => exact absurd rfl hj
    | 1, hx, _ => obtain rfl := Option.some.inj hx; exact .kind (l := .product SumExample.square) rfl (by decide +kernel)
    | 2, hx, _ => obtain rfl := Option.some.inj hx; exact .kind (l := .textString text) rfl (by decide +kernel)
    | 3, hx, _ => obtain rfl := Option.some.inj hx; exact .kind (l := .unit SumExample.blank) rfl (by decide +kernel)
    | j + 4, hx, _ => simp [SumExample.figure] at hx

theorem list_decided : WellDecided SumExample.reg list := by
  refine .list ?_
  simp only [List.mem_cons, List.not_mem_nil, or_false, forall_eq_or_imp, forall_eq]
  exact ⟨circle_decided, circle_decided⟩

theorem canonical (t : Term) : Canonical Example.xsd t := by
  intro u h
  cases h with
  | same => rfl
  | @boolean s b h =>
    simp only [Example.xsd] at h
    split at h
    · obtain rfl := Option.some.inj h; simp [Example.xsd, *]
    · split at h
      · obtain rfl := Option.some.inj h; simp [Example.xsd, *]
      · exact nomatch h
  | @number s s' ty r _ h h' =>
    simp only [Example.xsd] at h h'
    split at h
    · obtain rfl := Option.some.inj h; simp at h'; simp [*]
    · split at h
      · obtain rfl := Option.some.inj h; simp at h'; simp [*]
      · exact nomatch h

theorem list_printable : list.untype.Printable Example.xsd := by
  have hl : list.untype = .list [SumExample.aCircle, SumExample.aCircle] := by decide +kernel
  rw [hl]
  intro r h
  cases h with
  | list hm h =>
    simp only [List.mem_cons, List.not_mem_nil, or_false, or_self] at hm
    subst hm
    cases h with
    | map hm h =>
      simp only [List.mem_cons, Prod.mk.injEq, List.not_mem_nil, or_false] at hm
      obtain ⟨-, rfl⟩ := hm
      cases h
      exact ⟨"1", by decide +kernel⟩

/-! ## Layouts that do not write what they read -/

/-- A record with two fields, that share a variable which the record introduces, and does not bind. -/
def pair : ProductLayout Term :=
  { input := 1, intro := 1, dataset := [],
    fields := [
      (.text "p", { intro := 0, value := val "unit" 1, dataset := [q (.var 0) (c "p") (.var 1)], required := true }),
      (.text "q", { intro := 0, value := val "unit" 1, dataset := [q (.var 0) (c "q") (.var 1)], required := true })] }

/-- The layouts. -/
def pairReg : Registry Term
  | .iri "pair" => some (.product pair)
  | .iri "unit" => some (.unit { input := 1, intro := 0, dataset := [], const := .literal .unit })
  | _ => none

/-- The context. -/
def pairCtx : DeCtx := { reg := pairReg, isIri := fun _ => true, xsd := Example.xsd }

/-- The two fields are linked to different resources. -/
def pairQuads : List (Quad Term) := [⟨.iri "s", .iri "p", .iri "x", none⟩, ⟨.iri "s", .iri "q", .iri "y", none⟩]

/-- The pair that is read. -/
def aPair : TypedValue Term :=
  .map [(.text "p", .literal (.unit (.literal .unit) (.iri "unit"))), (.text "q", .literal (.unit (.literal .unit) (.iri "unit")))]
    (.iri "pair")

/-- A dog. -/
def dogQuads : List (Quad Term) :=
  [⟨.iri "rex", .iri "type", .iri "Dog", none⟩, ⟨.iri "rex", .iri "barks", .literal ⟨"loud", .any "xsd:string"⟩, none⟩]

/-- The dog that is read. -/
def aDog : TypedValue Term :=
  .variant (.map [(.text "barks", .literal (.textString "loud" (.iri "text")))] (.iri "dog")) (.iri "sum") 1

/-- A cat, described in the graph `G`. -/
def catQuads : List (Quad Term) :=
  [⟨.iri "me", .iri "pet", .iri "tom", none⟩, ⟨.iri "tom", .iri "type", .iri "Cat", some (.iri "G")⟩,
   ⟨.iri "tom", .iri "meows", .literal ⟨"loud", .any "xsd:string"⟩, some (.iri "G")⟩]

/-- The cat that is read. -/
def aCat : TypedValue Term :=
  .map [(.text "cat", .map [(.text "meows", .literal (.textString "loud" (.iri "text")))] (.iri "cat"))] (.iri "owner")

end Verif.ReproduceExample
