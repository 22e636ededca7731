import Verif.DeriveSerExample

/-! # A concrete derived enumeration -/

set_option linter.unusedSectionVars false
set_option linter.unusedSimpArgs false

namespace Verif.EnumExample

open DeExample (q c val number)
open SumExample (circle square)
open TreeExample (link)

/-- A shape: a circle or a square. -/
def shape : SumLayout Term :=
  { input := 1, intro := 0, dataset := [],
    variants := [
      { name := "circle", intro := 0, value := val "circle" 0, dataset := [q (.var 0) (c "type") (c "Circle")] },
      { name := "square", intro := 0, value := val "square" 0, dataset := [q (.var 0) (c "type") (c "Square")] }] }

/-- A list of shapes. -/
def shapes : OrderedLayout Term :=
  { input := 1, intro := 0, dataset := [], head := .var 0, tail := c "nil",
    node := { intro := 1, value := val "shape" 3,
              dataset := [q (.var 1) (c "first") (.var 3), q (.var 1) (c "rest") (.var 2)] } }

/-- The registry. -/
def reg : Registry Term
  | .iri "shapes" => some (.ordered shapes)
  | .iri "shape" => some (.sum shape)
  | .iri "circle" => some (.product circle)
  | .iri "square" => some (.product square)
  | .iri "number" => some (.number number)
  | _ => none

/-- The generic context. -/
def deCtx : DeCtx := { reg, isIri := fun _ => true, xsd := Example.xsd }

/-- The types. -/
def ctx : SeCtx := { SerExample.ctx with reg := reg, prim := fun _ => none }

/-- The context of deserialization. -/
def dsCtx (ds : List (Quad Term)) : DsCtx Term := .ofTerms ctx SerExample.fromLiteral SerExample.parseInt ds

theorem cases {P : Term → Layout Term → Prop} (h1 : P (.iri "shapes") (.ordered shapes)) (h2 : P (.iri "shape") (.sum shape))
    (h3 : P (.iri "circle") (.product circle)) (h4 : P (.iri "square") (.product square))
    (h5 : P (.iri "number") (.number number)) : ∀ ref l, reg ref = some l → P ref l := by
  intro ref l h
  unfold reg at h
  split at h <;> simp only [Option.some.injEq, reduceCtorEq] at h <;> subst h <;> assumption

theorem reg_sorted : reg.Sorted := by
  intro ref l h
  have := cases (P := fun _ l => ∀ p, l = .product p → SortedKeys p.fields) (by simp) (by simp)
    (by rintro p ⟨⟩; unfold SortedKeys; decide +kernel) (by rintro p ⟨⟩; unfold SortedKeys; decide +kernel)
    (by simp) ref _ h
  exact this l rfl

theorem closed : reg.Closed := by
  unfold Registry.Closed
  refine cases ?_ ?_ ?_ ?_ ?_ <;>
    simp [shapes, shape, circle, square, number, link, Layout.Closed, ItemLayout.Closed, PatsBelow,
      patsVars, QuadPat.vars, Pattern.vars, ValueFormat.Below, Pattern.Below, q, val, c]

theorem wellTyped : reg.WellTyped := by
  unfold Registry.WellTyped
  refine cases ?_ ?_ ?_ ?_ ?_ <;>
    simp [shapes, shape, circle, square, number, link, Layout.formats, val, reg, Layout.inputCount]

theorem distinctKeys : reg.DistinctKeys := by
  intro ref l h
  have := cases (P := fun _ l => ∀ p, l = .product p → (p.fields.map Prod.fst).Nodup) (by simp) (by simp)
    (by rintro p ⟨⟩; decide +kernel) (by rintro p ⟨⟩; decide +kernel) (by simp) ref _ h
  exact this l rfl

theorem noUnit (ref : Term) (l : UnitLayout Term) : reg ref ≠ some (.unit l) := by
  intro h
  have := cases (P := fun _ l => ∀ p, l ≠ .unit p) (by simp) (by simp) (by simp) (by simp) (by simp) ref _ h
  exact this l rfl

theorem noBool (ref : Term) (l : DataLayout Term) : reg ref ≠ some (.boolean l) := by
  intro h
  have := cases (P := fun _ l => ∀ p, l ≠ .boolean p) (by simp) (by simp) (by simp) (by simp) (by simp) ref _ h
  exact this l rfl

theorem noText (ref : Term) (l : TextLayout Term) : reg ref ≠ some (.textString l) := by
  intro h
  have := cases (P := fun _ l => ∀ p, l ≠ .textString p) (by simp) (by simp) (by simp) (by simp) (by simp) ref _ h
  exact this l rfl

theorem isNumber {ref : Term} {l : DataLayout Term} (h : reg ref = some (.number l)) : ref = .iri "number" ∧ l = number := by
  have := cases (P := fun r l => ∀ p, l = .number p → r = .iri "number" ∧ p = number) (by simp) (by simp) (by simp) (by simp)
    (by rintro p ⟨⟩; exact ⟨rfl, rfl⟩) ref _ h
  exact this l rfl

theorem isSum {ref : Term} {l : SumLayout Term} (h : reg ref = some (.sum l)) : l = shape := by
  have := cases (P := fun _ l => ∀ p, l = .sum p → p = shape) (by simp) (by rintro p ⟨⟩; rfl) (by simp) (by simp) (by simp) ref _ h
  exact this l rfl

theorem seLaws : SeLaws ctx where
  prim := by intro ref p h; simp [ctx] at h
  ofInput := by refine cases ?_ ?_ ?_ ?_ ?_ <;> simp [Layout.OfInput, number]
  datatype := by
    intro ref l d h
    have := cases (P := fun _ l => ∀ d, l.datatype? = some d → ∃ i, d = .iri i)
      (by simp [Layout.datatype?]) (by simp [Layout.datatype?]) (by simp [Layout.datatype?]) (by simp [Layout.datatype?])
      (by simp [Layout.datatype?, number]) ref l h
    exact this d

theorem seText : SeText ctx Example.xsd where
  boolType _ _ h := absurd h (noBool _ _)
  numType := by
    intro ref l i h hi
    obtain ⟨rfl, rfl⟩ := isNumber h
    injection hi with hi
    subst hi
    rfl
  boolean _ _ _ h := absurd h (noBool _ _)
  number := by
    intro ref l q s h hq
    simp only [ctx, SerExample.ctx, hq, Option.getD_some]
  text _ _ _ _ := rfl

theorem dsLaws (ds : List (Quad Term)) : DsLaws (dsCtx ds) Example.xsd where
  prim := by intro ref p h; simp [dsCtx, DsCtx.ofTerms, ctx] at h
  datatype := by
    intro ref l d h
    have := cases (P := fun _ l => ∀ d, l.datatype? = some d →
        (dsCtx ds).irisOf d = [(dsCtx ds).datatypeIri d] ∧ (dsCtx ds).datatypeIri d ≠ "http://www.w3.org/1999/02/22-rdf-syntax-ns#langString")
      (by simp [Layout.datatype?]) (by simp [Layout.datatype?]) (by simp [Layout.datatype?]) (by simp [Layout.datatype?])
      (by rintro d ⟨⟩; exact ⟨rfl, by simp [dsCtx, DsCtx.ofTerms, number, rdfLangString]⟩) ref l h
    exact this d
  boolType _ _ h := absurd h (noBool _ _)
  numType := by
    intro ref l h
    obtain ⟨rfl, rfl⟩ := isNumber h
    rfl
  boolean _ _ _ _ h := absurd h (noBool _ _)
  number := by
    intro ref l s lit h h'
    obtain ⟨rfl, rfl⟩ := isNumber h
    simp only [dsCtx, DsCtx.ofTerms, SerExample.fromLiteral, Term.iri.injEq, String.reduceEq, if_false, if_true,
      Option.map_eq_some_iff] at h'
    obtain ⟨q, hq, rfl⟩ := h'
    exact ⟨q, hq, rfl⟩
  bytes := by
    intro ref l s h
    have := cases (P := fun _ l => ∀ p, l ≠ .byteString p) (by simp) (by simp) (by simp) (by simp) (by simp) ref _ h
    exact absurd rfl (this l)
  text _ _ _ _ h := absurd h (noText _ _)
  int _ _ h := by simp [dsCtx, DsCtx.ofTerms, SerExample.parseInt] at h
  single r := by
    simp only [dsCtx, DsCtx.ofTerms]
    split <;> simp

theorem match_triple {ds : List (Quad Term)} {σ τ : Subst Term} {g : Option Term} {p o : String} {a : Term}
    (h : IsMatch ds σ (inGraph g [q (.var 0) (c p) (c o)]) τ) (ha : σ.get 0 = some a) :
    ∃ e ∈ ds, e.s = a ∧ e.o = .iri o := by
  have h0 := h.keeps 0 a ha
  have h1 : ∃ e ∈ ds, (Pattern.var 0 : Pattern Term).Denotes τ.get e.s ∧ (c o).Denotes τ.get e.o := by
    cases g with
    | none =>
      obtain ⟨e, he, hd⟩ := h.sat (q (.var 0) (c p) (c o)) (by simp [inGraph, q])
      exact ⟨e, he, hd.1, hd.2.2.1⟩
    | some g =>
      obtain ⟨e, he, hd⟩ := h.sat { q (.var 0) (c p) (c o) with g := some (.res g) } (by simp [inGraph, q])
      exact ⟨e, he, hd.1, hd.2.2.1⟩
  obtain ⟨e, he, hs, ho⟩ := h1
  simp only [Pattern.Denotes, c] at hs ho
  rw [h0] at hs
  exact ⟨e, he, by simpa using hs.symm, ho⟩

theorem dsTotal (ds : List (Quad Term))
    (hds : ∀ e ∈ ds, ∀ e' ∈ ds, e'.s = e.s → e.o = .iri "Circle" → e'.o ≠ .iri "Square") : DsTotal (dsCtx ds) Example.xsd where
  known _ := rfl
  boolean _ _ _ _ h := absurd h (noBool _ _)
  text _ _ _ h := absurd h (noText _ _)
  number := by
    intro ref l h r lit _ _ q hq
    obtain ⟨rfl, rfl⟩ := isNumber h
    exact ⟨.number q (.iri "number"), by
      simp only [dsCtx, DsCtx.ofTerms, SerExample.fromLiteral, Term.iri.injEq, String.reduceEq, if_false, if_true, hq,
        Option.map_some]⟩
  discriminated := by
    intro ref l h g ins σ τ τ' i j v w hi hu hv hw hm hm'
    have := isSum h
    subst this
    obtain ⟨a, rfl⟩ := List.length_eq_one_iff.1 hi
    have ha : σ.get 0 = some a := hu.1.keeps 0 a rfl
    have hget : ∀ k : Nat, Subst.get (σ ++ List.replicate k none) 0 = some a := by
      intro k
      cases σ with
      | nil => simp [Subst.get] at ha
      | cons b σ => exact ha
    have hex : ¬ ((∃ e ∈ ds, e.s = a ∧ e.o = .iri "Circle") ∧ (∃ e ∈ ds, e.s = a ∧ e.o = .iri "Square")) := by
      rintro ⟨⟨e, he, rfl, h1⟩, ⟨e', he', h2, h3⟩⟩
      exact hds e he e' he' h2 h1 h3
    match i, j with
    | 0, 0 => rfl
    | 1, 1 => rfl
    | 0, 1 =>
      simp only [shape, List.getElem?_cons_zero, List.getElem?_cons_succ, Option.some.injEq] at hv hw
      subst hv; subst hw
      exact absurd ⟨match_triple hm (hget _), match_triple hm' (hget _)⟩ hex
    | 1, 0 =>
      simp only [shape, List.getElem?_cons_zero, List.getElem?_cons_succ, Option.some.injEq] at hv hw
      subst hv; subst hw
      exact absurd ⟨match_triple hm' (hget _), match_triple hm (hget _)⟩ hex
    | i + 2, _ => simp [shape] at hv
    | 0, j + 2 => simp [shape] at hw
    | 1, j + 2 => simp [shape] at hw
  noAlways ref h := by
    have := cases (P := fun _ l => l ≠ .always) (by simp) (by simp) (by simp) (by simp) (by simp) ref _ h
    exact this rfl

/-! ## Trees -/

theorem link_iff {layout name : String} {b : Bool} {p : Term} (h : (link layout name b).2.Uses reg p) :
    p = .iri name := by
  rcases h with h | h
  · have := h.2.1
    simp only [link, q, c, linkPat, List.cons.injEq, Quad.mk.injEq, Pattern.res.injEq] at this
    exact this.1.2.1.symm
  · simp [Field.OnSelf, link] at h

theorem circle_links {p : Term} (h : (Layout.product circle).Links reg p) : p = .iri "radius" := by
  obtain ⟨e, he, h⟩ := h
  simp only [circle, List.mem_singleton] at he
  subst he
  exact link_iff h

theorem square_links {p : Term} (h : (Layout.product square).Links reg p) : p = .iri "side" := by
  obtain ⟨e, he, h⟩ := h
  simp only [square, List.mem_singleton] at he
  subst he
  exact link_iff h

theorem circle_writes {p o : Term} (h : LayoutWrites reg p o (.iri "circle")) : p = .iri "radius" := by
  cases h with
  | statement hl h => simp only [reg, Option.some.injEq] at hl; subst hl; simp [Layout.statements, circle] at h
  | link hl h => simp only [reg, Option.some.injEq] at hl; subst hl; exact circle_links h
  | variant hl => simp [reg] at hl
  | sum hl => simp [reg] at hl

theorem square_writes {p o : Term} (h : LayoutWrites reg p o (.iri "square")) : p = .iri "side" := by
  cases h with
  | statement hl h => simp only [reg, Option.some.injEq] at hl; subst hl; simp [Layout.statements, square] at h
  | link hl h => simp only [reg, Option.some.injEq] at hl; subst hl; exact square_links h
  | variant hl => simp [reg] at hl
  | sum hl => simp [reg] at hl

theorem no_literal {d : Term} {ref : String} (h : ref = "circle" ∨ ref = "square") : ¬ WritesLiteral reg d (.iri ref) := by
  intro h'
  rcases h with rfl | rfl <;> cases h' with
  | data hl h => simp only [reg, Option.some.injEq] at hl; subst hl; simp [Layout.literalType] at h
  | sum hl => simp [reg] at hl

theorem reg_tree : ∀ ref l, reg ref = some l → l.Tree reg Example.xsd := by
  refine cases ?_ ?_ ?_ ?_ ?_
  · refine ⟨.iri "first", .iri "rest", "nil", rfl, rfl, rfl, rfl, rfl, by simp, rfl, ?_, rfl, rfl⟩
    intro p
    simp [shapes, q, c, linkPat]
  · refine ⟨rfl, rfl, by simp [shape, ConstPats], ?_, ?_, ?_, ?_⟩
    · simp only [shape, List.mem_cons, List.not_mem_nil, or_false, forall_eq_or_imp, forall_eq]
      refine ⟨⟨trivial, ?_, rfl, rfl⟩, ⟨trivial, ?_, rfl, rfl⟩⟩
      · intro p hp; simp only [List.mem_singleton] at hp; subst hp; exact ⟨_, _, rfl⟩
      · intro p hp; simp only [List.mem_singleton] at hp; subst hp; exact ⟨_, _, rfl⟩
    · simp only [shape, List.mem_cons, List.not_mem_nil, or_false, forall_eq_or_imp, forall_eq]
      exact ⟨fun d h => absurd h (no_literal (.inl rfl)), fun d h => absurd h (no_literal (.inr rfl))⟩
    · simp only [shape, List.mem_cons, List.not_mem_nil, or_false, forall_eq_or_imp, forall_eq, List.nil_append]
      refine ⟨fun p hp h => ?_, fun p hp h => ?_⟩
      · have e : p = .iri "type" := by simpa [q, c] using hp.symm
        subst e
        cases h with
        | link hl h => simp only [val, reg, Option.some.injEq] at hl; subst hl; simpa using circle_links h
        | variant hl => simp [val, reg] at hl
        | statement hl => simp [val, reg] at hl
        | sum hl => simp [val, reg] at hl
      · have e : p = .iri "type" := by simpa [q, c] using hp.symm
        subst e
        cases h with
        | link hl h => simp only [val, reg, Option.some.injEq] at hl; subst hl; simpa using square_links h
        | variant hl => simp [val, reg] at hl
        | statement hl => simp [val, reg] at hl
        | sum hl => simp [val, reg] at hl
    · simp only [shape, List.pairwise_cons, List.mem_cons, List.not_mem_nil, or_false, forall_eq_or_imp, forall_eq,
        List.Pairwise.nil, and_true, false_imp_iff, implies_true]
      exact ⟨.triple (.iri "type") (.iri "Square") (.product square) rfl (by simp [q, c]) (by simp [shape, q, c])
          fun h => by simpa using circle_writes h,
        .triple (.iri "type") (.iri "Circle") (.product circle) rfl (by simp [q, c]) (by simp [shape, q, c])
          fun h => by simpa using square_writes h⟩
  · refine ⟨rfl, rfl, by simp [circle, ConstPats], ?_, ?_, ?_, ?_, ?_⟩
    · simp only [circle, List.mem_singleton, forall_eq]
      exact .inl ⟨_, .inl (TreeExample.isLink ..)⟩
    · simp [circle, link, Field.OnSelf]
    · simp [circle]
    · simp [circle]
    · simp [circle]
  · refine ⟨rfl, rfl, by simp [square, ConstPats], ?_, ?_, ?_, ?_, ?_⟩
    · simp only [square, List.mem_singleton, forall_eq]
      exact .inl ⟨_, .inl (TreeExample.isLink ..)⟩
    · simp [square, link, Field.OnSelf]
    · simp [square]
    · simp [square]
    · simp [square]
  · exact ⟨⟨rfl, rfl, rfl⟩, _, rfl, by simp [Example.xsd]⟩

theorem reg_defined : ∀ ref l, reg ref = some l → ∀ f ∈ l.formats, ∃ l', reg f.layout = some l' := by
  refine cases ?_ ?_ ?_ ?_ ?_ <;>
    simp [shapes, shape, circle, square, link, Layout.formats, val, reg]

theorem trees (ref : Term) (l : Layout Term) (h : reg ref = some l) : TreeLayouts reg Example.xsd ref := by
  have : ∀ ref', Reaches reg ref ref' → ∃ l, reg ref' = some l := by
    intro ref' hr
    induction hr with
    | refl => exact ⟨l, h⟩
    | step _ h1 h2 => exact reg_defined _ _ h1 _ h2
  intro ref' hr
  obtain ⟨l', hl'⟩ := this ref' hr
  exact ⟨l', hl', reg_tree _ _ hl'⟩

/-! ## A value -/

/-- A circle. -/
def aCircle : TypedValue Term := .variant (.map [(.text "radius", SerExample.num 1)] (.iri "circle")) (.iri "shape") 0

/-- A square. -/
def aSquare : TypedValue Term := .variant (.map [(.text "side", SerExample.num 0)] (.iri "square")) (.iri "shape") 1

/-- A list of shapes. -/
def logo : TypedValue Term := .list [aCircle, aSquare, aCircle] (.iri "shapes")

theorem logo_untype : logo.untype = .list [SumExample.aCircle, SumExample.aSquare, SumExample.aCircle] := rfl

theorem aCircle_type : HasType reg (.iri "shape") aCircle := by
  refine .sum (l := shape) 0 _ _ rfl rfl (.product _ (l := circle) rfl (by decide +kernel) ?_ ?_)
  · simp only [circle, link, List.mem_singleton, Prod.mk.injEq]
    rintro k f ⟨rfl, rfl⟩ _
    exact ⟨_, rfl, rfl⟩
  · simp only [circle, link, List.mem_singleton, Prod.mk.injEq]
    rintro k v f ⟨rfl, rfl⟩ ⟨-, rfl⟩
    exact .number (l := number) _ rfl

theorem aSquare_type : HasType reg (.iri "shape") aSquare := by
  refine .sum (l := shape) 1 _ _ rfl rfl (.product _ (l := square) rfl (by decide +kernel) ?_ ?_)
  · simp only [square, link, List.mem_singleton, Prod.mk.injEq]
    rintro k f ⟨rfl, rfl⟩ _
    exact ⟨_, rfl, rfl⟩
  · simp only [square, link, List.mem_singleton, Prod.mk.injEq]
    rintro k v f ⟨rfl, rfl⟩ ⟨-, rfl⟩
    exact .number (l := number) _ rfl

theorem logo_type : HasType reg (.iri "shapes") logo := by
  refine .ordered (l := shapes) _ rfl ?_
  simp only [List.mem_cons, List.not_mem_nil, or_false, forall_eq_or_imp, forall_eq]
  exact ⟨aCircle_type, aSquare_type, aCircle_type⟩

theorem record_recoverable {layout : String} {l : ProductLayout Term} (hl : reg (.iri layout) = some (.product l))
    (h : l = circle ∨ l = square) (m : List (Value × Value)) : Recoverable reg (.iri layout) (.map m) := by
  refine .product (l := l) _ hl ?_
  intro k v f _ hf
  rcases h with rfl | rfl
  · simp only [circle, List.mem_singleton, link, Prod.mk.injEq] at hf
    obtain ⟨-, rfl⟩ := hf
    exact .leaf _ (by simp [val, reg, Layout.formats])
  · simp only [square, List.mem_singleton, link, Prod.mk.injEq] at hf
    obtain ⟨-, rfl⟩ := hf
    exact .leaf _ (by simp [val, reg, Layout.formats])

theorem logo_recoverable : Recoverable reg (.iri "shapes") logo.untype := by
  rw [logo_untype]
  refine .ordered (l := shapes) _ rfl (by simp) ?_
  simp only [List.mem_cons, List.not_mem_nil, or_false, forall_eq_or_imp, forall_eq]
  refine ⟨.sum (l := shape) _ [] _ _ rfl rfl ?_ (record_recoverable rfl (.inl rfl) _),
    .sum (l := shape) _ [_] _ _ rfl rfl ?_ (record_recoverable rfl (.inr rfl) _),
    .sum (l := shape) _ [] _ _ rfl rfl ?_ (record_recoverable rfl (.inl rfl) _)⟩ <;>
  simp [val, reg, Layout.rejects, SumExample.aCircle, SumExample.aSquare, circle, square, link, Value.text]

theorem logo_decided : Decided reg logo :=
  Derived.decided_of_recoverable logo_type (trees (.iri "shapes") _ rfl) logo_recoverable

theorem logo_ids : (nodeIds reg 6 (.iri "shapes") logo.untype).Nodup := by decide +kernel

theorem logo_printable : logo.untype.Printable Example.xsd := by
  rw [logo_untype]
  have : ∀ q, (Value.list [SumExample.aCircle, SumExample.aSquare, SumExample.aCircle]).HasNumber q → q = 0 ∨ q = 1 := by
    intro q h
    cases h with
    | list hm h =>
      simp only [List.mem_cons, List.not_mem_nil, or_false] at hm
      rcases hm with rfl | rfl | rfl
      all_goals
        cases h with
        | map hm h =>
          simp only [List.mem_singleton, Prod.mk.injEq] at hm; obtain ⟨-, rfl⟩ := hm; cases h
          first | exact .inr rfl | exact .inl rfl
  intro q h
  rcases this q h with rfl | rfl
  · exact ⟨_, rfl⟩
  · exact ⟨_, rfl⟩

/-- What is saved for it. -/
def quads : List (Quad Term) :=
  match Derived.save ctx 6 logo (.iri "shapes") DeExample.opts with
  | .ok (d, _) => d
  | _ => []

theorem save_logo : Derived.save ctx 6 logo (.iri "shapes") DeExample.opts = .ok (quads, [.blank "input0"]) := by
  decide +kernel

theorem quads_length : quads.length = 12 := by decide +kernel

theorem quads_apart : ∀ e ∈ quads, ∀ e' ∈ quads, e'.s = e.s → e.o = .iri "Circle" → e'.o ≠ .iri "Square" := by
  decide +kernel

theorem logo_allIds : AllIds (fun s => ctx.isIri s = true) logo := SerExample.allIds _

end Verif.EnumExample
