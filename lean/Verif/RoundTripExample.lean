import Verif.DehydrateExample
import Verif.RoundTripSpec

/-! # A registry of layouts that write trees, used to show that the hypotheses of the round trip theorems can be met -/

set_option linter.unusedSimpArgs false

namespace Verif.TreeExample

open DeExample

/-- A field linked by a property of the same name. -/
def link (layout name : String) (required : Bool) : Value × Field Term :=
  (.text name, { intro := 1, value := val layout 1, dataset := [q (.var 0) (c name) (.var 1)], required })

/-- A field describing the record itself. -/
def self (layout name : String) : Value × Field Term :=
  (.text name, { intro := 0, value := val layout 0, dataset := [], required := true })

/-- A person: an optional age, an identifier and a name. -/
def person : ProductLayout Term :=
  { input := 1, intro := 0, dataset := [q (.var 0) (c "type") (c "Person")],
    fields := [link "number" "age" false, self "id" "id", link "text" "name" true] }

/-- A club: a list of members, an optional place, and a set of tags. -/
def club : ProductLayout Term :=
  { input := 1, intro := 0, dataset := [q (.var 0) (c "type") (c "Club")],
    fields := [link "members" "members" true, link "place" "place" false, self "tags" "tags"] }

/-- An RDF list of persons. -/
def members : OrderedLayout Term :=
  { input := 1, intro := 0, dataset := [], head := .var 0, tail := c "nil",
    node := { intro := 1, value := val "person" 3,
              dataset := [q (.var 1) (c "first") (.var 3), q (.var 1) (c "rest") (.var 2)] } }

/-- Two coordinates. -/
def place : SizedLayout Term :=
  { input := 1, intro := 0, dataset := [q (.var 0) (c "type") (c "Place")],
    items := [{ intro := 1, value := val "number" 1, dataset := [q (.var 0) (c "x") (.var 1)] },
              { intro := 1, value := val "number" 1, dataset := [q (.var 0) (c "y") (.var 1)] }] }

/-- The registry. -/
def reg : Registry Term
  | .iri "club" => some (.product club)
  | .iri "person" => some (.product person)
  | .iri "members" => some (.ordered members)
  | .iri "place" => some (.sized place)
  | .iri "text" => some (.textString text)
  | .iri "number" => some (.number number)
  | .iri "id" => some (.id ident)
  | .iri "tags" => some (.unordered tags)
  | _ => none

/-- The context. -/
def ctx : DeCtx := { reg, isIri := fun _ => true, xsd := Example.xsd }

/-- A person. -/
def alice : Value := .map [(.text "age", .literal (.number 1)), (.text "id", .text "alice"), (.text "name", .text "Alice")]

/-- Another one. -/
def bob : Value := .map [(.text "id", .text "bob"), (.text "name", .text "Bob")]

/-- A list of persons. -/
def both : Value := .list [alice, bob]

/-- A club. -/
def chess : Value := .map [(.text "members", both), (.text "place", .list [.literal (.number 0), .literal (.number 1)]),
  (.text "tags", .list [.text "b", .text "a"])]

theorem reg_cases {P : Layout Term → Prop} (h1 : P (.product club)) (h2 : P (.product person)) (h3 : P (.ordered members))
    (h4 : P (.sized place)) (h5 : P (.textString text)) (h6 : P (.number number)) (h7 : P (.id ident))
    (h8 : P (.unordered tags)) : ∀ ref l, reg ref = some l → P l := by
  intro ref l h
  unfold reg at h
  split at h <;> simp only [Option.some.injEq, reduceCtorEq] at h <;> subst h <;> assumption

theorem reg_sorted : reg.Sorted := by
  intro ref l h
  have := reg_cases (P := fun l => ∀ p, l = .product p → SortedKeys p.fields)
    (by rintro p ⟨⟩; unfold SortedKeys; decide +kernel) (by rintro p ⟨⟩; unfold SortedKeys; decide +kernel) (by simp)
    (by simp) (by simp) (by simp) (by simp) (by simp) ref _ h
  exact this l rfl

theorem opts_blank : BlankNames opts where
  generator i := ⟨_, rfl⟩
  input := ⟨_, rfl⟩
  injective i j h := by
    simp only [opts, Term.blank.injEq] at h
    have := congrArg (fun s => s.toList.length) h
    simpa using this
  input_ne i h := by
    simp only [opts, if_true, Term.blank.injEq] at h
    have := congrArg String.toList h
    simp [List.replicate_succ] at this

theorem isVar (layout : String) (x : Nat) : (val layout x).IsVar x := ⟨rfl, rfl⟩

theorem isLink (layout name : String) (b : Bool) : (link layout name b).2.IsLink (.iri name) := ⟨rfl, rfl, rfl, rfl⟩

theorem link_iff {layout name : String} {b : Bool} {p : Term} (h : (link layout name b).2.Uses reg p) : p = .iri name := by
  rcases h with h | h
  · have := h.2.1
    simp only [link, q, c, linkPat, List.cons.injEq, Quad.mk.injEq, Pattern.res.injEq] at this
    exact this.1.2.1.symm
  · simp [Field.OnSelf, link] at h

theorem tags_set : tags.IsSet (.iri "tag") := ⟨rfl, rfl, rfl, rfl, rfl, rfl, rfl⟩

theorem self_tags {p : Term} (h : (self "tags" "tags").2.Uses reg p) : p = .iri "tag" := by
  rcases h with h | ⟨-, l, hl, h⟩
  · simp [Field.IsLink, self] at h
  · simp only [self, val, reg, Option.some.injEq, Layout.unordered.injEq] at hl
    subst hl
    have := h.2.2.2.2.1
    simp only [tags, q, c, linkPat, List.cons.injEq, Quad.mk.injEq, Pattern.res.injEq] at this
    exact this.1.2.1.symm

theorem self_id {p : Term} : ¬ (self "id" "id").2.Uses reg p := by
  rintro (h | ⟨-, l, hl, h⟩)
  · simp [Field.IsLink, self] at h
  · simp [self, val, reg] at hl

theorem reg_tree : ∀ ref l, reg ref = some l → l.Tree reg Example.xsd := by
  refine reg_cases ?_ ?_ ?_ ?_ ?_ ?_ ?_ ?_
  · refine ⟨rfl, rfl, ?_, ?_, ?_, ?_, ?_, ?_⟩
    · intro p hp; simp only [club, List.mem_singleton] at hp; subst hp; exact ⟨_, _, rfl⟩
    · simp only [club, List.mem_cons, List.not_mem_nil, or_false, forall_eq_or_imp, forall_eq]
      exact ⟨.inl ⟨_, .inl (isLink ..)⟩, .inl ⟨_, .inl (isLink ..)⟩,
        .inl ⟨_, .inr ⟨⟨rfl, rfl, rfl, rfl⟩, _, rfl, tags_set⟩⟩⟩
    · simp [club, link, self, Field.OnSelf]
    · simp only [club, List.pairwise_cons, List.mem_cons, List.not_mem_nil, or_false, forall_eq_or_imp, forall_eq,
        List.Pairwise.nil, and_true, false_imp_iff, implies_true]
      refine ⟨⟨fun p h1 h2 => ?_, fun p h1 h2 => ?_⟩, fun p h1 h2 => ?_⟩
      · have := link_iff h1; rw [link_iff h2] at this; simp at this
      · have := link_iff h1; rw [self_tags h2] at this; simp at this
      · have := link_iff h1; rw [self_tags h2] at this; simp at this
    · simp only [club, List.mem_cons, List.not_mem_nil, or_false, forall_eq_or_imp, forall_eq]
      refine ⟨fun p h => ?_, fun p h => ?_, fun p h => ?_⟩
      · rw [link_iff h]; simp [q, c]
      · rw [link_iff h]; simp [q, c]
      · rw [self_tags h]; simp [q, c]
    · simp [club, link, self, Field.IsId, Field.OnSelf, val, reg]
  · refine ⟨rfl, rfl, ?_, ?_, ?_, ?_, ?_, ?_⟩
    · intro p hp; simp only [person, List.mem_singleton] at hp; subst hp; exact ⟨_, _, rfl⟩
    · simp only [person, List.mem_cons, List.not_mem_nil, or_false, forall_eq_or_imp, forall_eq]
      exact ⟨.inl ⟨_, .inl (isLink ..)⟩, .inr ⟨⟨rfl, rfl, rfl, rfl⟩, _, rfl⟩, .inl ⟨_, .inl (isLink ..)⟩⟩
    · simp [person, link, self, Field.OnSelf]
    · simp only [person, List.pairwise_cons, List.mem_cons, List.not_mem_nil, or_false, forall_eq_or_imp, forall_eq,
        List.Pairwise.nil, and_true, false_imp_iff, implies_true]
      refine ⟨⟨fun p h1 h2 => self_id h2, fun p h1 h2 => ?_⟩, fun p h1 h2 => self_id h1⟩
      have := link_iff h1; rw [link_iff h2] at this; simp at this
    · simp only [person, List.mem_cons, List.not_mem_nil, or_false, forall_eq_or_imp, forall_eq]
      refine ⟨fun p h => ?_, fun p h => (self_id h).elim, fun p h => ?_⟩
      · rw [link_iff h]; simp [q, c]
      · rw [link_iff h]; simp [q, c]
    · simp [person, link, self, Field.IsId, Field.OnSelf, val, reg]
  · refine ⟨.iri "first", .iri "rest", "nil", rfl, rfl, rfl, rfl, rfl, by simp, rfl, ?_, rfl, rfl⟩
    intro p
    simp [members, q, c, linkPat]
  · refine ⟨rfl, rfl, ?_, ?_, ?_⟩
    · intro p hp; simp only [place, List.mem_singleton] at hp; subst hp; exact ⟨_, _, rfl⟩
    · simp only [place, List.mem_cons, List.not_mem_nil, or_false, forall_eq_or_imp, forall_eq]
      exact ⟨⟨_, ⟨rfl, rfl, rfl, rfl⟩, by simp [q, c]⟩, ⟨_, ⟨rfl, rfl, rfl, rfl⟩, by simp [q, c]⟩⟩
    · simp only [place, List.pairwise_cons, List.mem_cons, List.not_mem_nil, or_false, forall_eq,
        List.Pairwise.nil, and_true, false_imp_iff, implies_true]
      rintro p ⟨-, h1, -⟩ ⟨-, h2, -⟩
      simp only [q, c, linkPat, List.cons.injEq, Quad.mk.injEq, Pattern.res.injEq] at h1 h2
      have := h1.1.2.1.trans h2.1.2.1.symm
      simp at this
  · exact ⟨⟨rfl, rfl, rfl⟩, _, rfl⟩
  · exact ⟨⟨rfl, rfl, rfl⟩, _, rfl, by simp [Example.xsd]⟩
  · exact ⟨rfl, rfl, rfl⟩
  · exact ⟨_, tags_set⟩

theorem reg_defined : ∀ ref l, reg ref = some l → ∀ f ∈ l.formats, ∃ l', reg f.layout = some l' := by
  refine reg_cases ?_ ?_ ?_ ?_ ?_ ?_ ?_ ?_ <;>
    simp [club, person, members, place, text, number, ident, tags, link, self, Layout.formats, val, reg]

theorem trees (ref : Term) (l : Layout Term) (h : reg ref = some l) : TreeLayouts reg Example.xsd ref := by
  have : ∀ ref', Reaches reg ref ref' → ∃ l, reg ref' = some l := by
    intro ref' hr
    induction hr with
    | refl => exact ⟨l, h⟩
    | step _ h1 h2 => exact reg_defined _ _ h1 _ h2
  intro ref' hr
  obtain ⟨l', hl'⟩ := this ref' hr
  exact ⟨l', hl', reg_tree _ _ hl'⟩

theorem alice_sorted : alice.Sorted := by
  refine .map _ (by unfold SortedKeys; decide +kernel) ?_
  simp only [List.mem_cons, List.not_mem_nil, or_false, forall_eq_or_imp, forall_eq]
  exact ⟨.literal _, .literal _, .literal _⟩

theorem bob_sorted : bob.Sorted := by
  refine .map _ (by unfold SortedKeys; decide +kernel) ?_
  simp only [List.mem_cons, List.not_mem_nil, or_false, forall_eq_or_imp, forall_eq]
  exact ⟨.literal _, .literal _⟩

theorem both_sorted : both.Sorted := by
  refine .list _ ?_
  simp only [List.mem_cons, List.not_mem_nil, or_false, forall_eq_or_imp, forall_eq]
  exact ⟨alice_sorted, bob_sorted⟩

theorem chess_sorted : chess.Sorted := by
  refine .map _ (by unfold SortedKeys; decide +kernel) ?_
  simp only [List.mem_cons, List.not_mem_nil, or_false, forall_eq_or_imp, forall_eq]
  refine ⟨both_sorted, .list _ ?_, .list _ ?_⟩
  · simp only [List.mem_cons, List.not_mem_nil, or_false, forall_eq_or_imp, forall_eq]
    exact ⟨.literal _, .literal _⟩
  · simp only [List.mem_cons, List.not_mem_nil, or_false, forall_eq_or_imp, forall_eq]
    exact ⟨.literal _, .literal _⟩

theorem person_noEmpty (m : List (Value × Value)) : Recoverable reg (.iri "person") (.map m) := by
  refine .product (l := person) _ rfl ?_
  intro k v f _ hf
  simp only [person, List.mem_cons, List.not_mem_nil, or_false, link, self, Prod.mk.injEq] at hf
  rcases hf with ⟨-, rfl⟩ | ⟨-, rfl⟩ | ⟨-, rfl⟩ <;>
    exact .leaf _ (by simp [val, reg, Layout.formats])

theorem both_noEmpty : Recoverable reg (.iri "members") both := by
  refine .ordered (l := members) _ rfl (by simp) ?_
  simp only [List.mem_cons, List.not_mem_nil, or_false, forall_eq_or_imp, forall_eq]
  exact ⟨person_noEmpty _, person_noEmpty _⟩

theorem chess_noEmpty : Recoverable reg (.iri "club") chess := by
  refine .product (l := club) _ rfl ?_
  intro k v f hv hf
  simp only [List.mem_cons, Prod.mk.injEq, List.not_mem_nil, or_false] at hv
  simp only [club, List.mem_cons, List.not_mem_nil, or_false, link, self, Prod.mk.injEq] at hf
  rcases hv with ⟨rfl, rfl⟩ | ⟨rfl, rfl⟩ | ⟨rfl, rfl⟩ <;> simp [Value.text] at hf <;> subst hf
  · exact both_noEmpty
  · refine .sized (l := place) _ rfl ?_
    simp only [place, List.zip_cons_cons, List.zip_nil_left, List.mem_cons, List.not_mem_nil, or_false, forall_eq_or_imp, forall_eq]
    exact ⟨.leaf _ (by simp [val, reg, Layout.formats]), .leaf _ (by simp [val, reg, Layout.formats])⟩
  · refine .unordered (l := tags) _ rfl ?_
    intro v _
    exact .leaf _ (by simp [tags, val, reg, Layout.formats])

theorem chess_ids : (nodeIds reg 6 (.iri "club") chess).Nodup := by decide +kernel

theorem both_ids : (nodeIds reg 6 (.iri "members") both).Nodup := by decide +kernel

end Verif.TreeExample

/-! ## Sums -/

namespace Verif.SumExample

open DeExample

/-- A circle. -/
def circle : ProductLayout Term := { input := 1, intro := 0, dataset := [], fields := [TreeExample.link "number" "radius" true] }

/-- A square. -/
def square : ProductLayout Term := { input := 1, intro := 0, dataset := [], fields := [TreeExample.link "number" "side" true] }

/-- Nothing. -/
def blank : UnitLayout Term :=
  { input := 1, intro := 0, dataset := [q (.var 0) (c "type") (c "Blank")], const := .literal .unit }

/-- A figure: a circle, a square, a label or nothing. -/
def figure : SumLayout Term :=
  { input := 1, intro := 0, dataset := [],
    variants := [
      { name := "circle", intro := 0, value := val "circle" 0, dataset := [q (.var 0) (c "type") (c "Circle")] },
      { name := "square", intro := 0, value := val "square" 0, dataset := [q (.var 0) (c "type") (c "Square")] },
      { name := "label", intro := 0, value := val "text" 0, dataset := [] },
      { name := "blank", intro := 0, value := val "blank" 0, dataset := [] }] }

/-- A list of figures. -/
def figures : OrderedLayout Term :=
  { input := 1, intro := 0, dataset := [], head := .var 0, tail := c "nil",
    node := { intro := 1, value := val "figure" 3,
              dataset := [q (.var 1) (c "first") (.var 3), q (.var 1) (c "rest") (.var 2)] } }

/-- The registry. -/
def reg : Registry Term
  | .iri "figures" => some (.ordered figures)
  | .iri "figure" => some (.sum figure)
  | .iri "circle" => some (.product circle)
  | .iri "square" => some (.product square)
  | .iri "blank" => some (.unit blank)
  | .iri "text" => some (.textString text)
  | .iri "number" => some (.number number)
  | _ => none

/-- The context. -/
def ctx : DeCtx := { reg, isIri := fun _ => true, xsd := Example.xsd }

/-- A circle. -/
def aCircle : Value := .map [(.text "radius", .literal (.number 1))]

/-- A square. -/
def aSquare : Value := .map [(.text "side", .literal (.number 0))]

/-- A drawing. -/
def drawing : Value := .list [aCircle, .text "a label", aSquare, .literal .unit]

theorem reg_cases {P : Layout Term → Prop} (h1 : P (.ordered figures)) (h2 : P (.sum figure)) (h3 : P (.product circle))
    (h4 : P (.product square)) (h5 : P (.unit blank)) (h6 : P (.textString text)) (h7 : P (.number number)) :
    ∀ ref l, reg ref = some l → P l := by
  intro ref l h
  unfold reg at h
  split at h <;> simp only [Option.some.injEq, reduceCtorEq] at h <;> subst h <;> assumption

theorem reg_sorted : reg.Sorted := by
  intro ref l h
  have := reg_cases (P := fun l => ∀ p, l = .product p → SortedKeys p.fields) (by simp) (by simp)
    (by rintro p ⟨⟩; unfold SortedKeys; decide +kernel) (by rintro p ⟨⟩; unfold SortedKeys; decide +kernel)
    (by simp) (by simp) (by simp) ref _ h
  exact this l rfl

theorem link_iff {layout name : String} {b : Bool} {p : Term} (h : (TreeExample.link layout name b).2.Uses reg p) :
    p = .iri name := by
  rcases h with h | h
  · have := h.2.1
    simp only [TreeExample.link, q, c, linkPat, List.cons.injEq, Quad.mk.injEq, Pattern.res.injEq] at this
    exact this.1.2.1.symm
  · simp [Field.OnSelf, TreeExample.link] at h

theorem circle_links {p : Term} (h : (Layout.product circle).Links reg p) : p = .iri "radius" := by
  obtain ⟨e, he, h⟩ := h
  simp only [circle, List.mem_singleton] at he
  subst he
  exact link_iff h

theorem square_links {p : Term} (h : (Layout.product square).Links reg p) : p = .iri "side" := by
  obtain ⟨e, he, h⟩ := h
  simp only [square, List.mem_singleton] at he
  subst he
  exact link_iff h

theorem circle_writes {p o : Term} (h : LayoutWrites reg p o (.iri "circle")) : p = .iri "radius" := by
  cases h with
  | statement hl h => simp only [reg, Option.some.injEq] at hl; subst hl; simp [Layout.statements, circle] at h
  | link hl h => simp only [reg, Option.some.injEq] at hl; subst hl; exact circle_links h
  | variant hl => simp [reg] at hl
  | sum hl => simp [reg] at hl

theorem square_writes {p o : Term} (h : LayoutWrites reg p o (.iri "square")) : p = .iri "side" := by
  cases h with
  | statement hl h => simp only [reg, Option.some.injEq] at hl; subst hl; simp [Layout.statements, square] at h
  | link hl h => simp only [reg, Option.some.injEq] at hl; subst hl; exact square_links h
  | variant hl => simp [reg] at hl
  | sum hl => simp [reg] at hl

theorem text_writes {p o : Term} : ¬ LayoutWrites reg p o (.iri "text") := by
  intro h
  cases h with
  | statement hl h => simp only [reg, Option.some.injEq] at hl; subst hl; simp [Layout.statements] at h
  | link hl h => simp only [reg, Option.some.injEq] at hl; subst hl; exact h
  | variant hl => simp [reg] at hl
  | sum hl => simp [reg] at hl

theorem blank_writes {p o : Term} (h : LayoutWrites reg p o (.iri "blank")) : o = .iri "Blank" := by
  cases h with
  | statement hl h =>
    simp only [reg, Option.some.injEq] at hl
    subst hl
    simp only [Layout.statements, blank, q, c, List.mem_singleton, Quad.mk.injEq, Pattern.res.injEq] at h
    exact h.2.2.1
  | link hl h => simp only [reg, Option.some.injEq] at hl; subst hl; exact h.elim
  | variant hl => simp [reg] at hl
  | sum hl => simp [reg] at hl

theorem no_literal {d : Term} {ref : String} (h : ref = "circle" ∨ ref = "square" ∨ ref = "blank") :
    ¬ WritesLiteral reg d (.iri ref) := by
  intro h'
  rcases h with rfl | rfl | rfl <;> cases h' with
  | data hl h => simp only [reg, Option.some.injEq] at hl; subst hl; simp [Layout.literalType] at h
  | sum hl => simp [reg] at hl

theorem reg_tree : ∀ ref l, reg ref = some l → l.Tree reg Example.xsd := by
  refine reg_cases ?_ ?_ ?_ ?_ ?_ ?_ ?_
  · refine ⟨.iri "first", .iri "rest", "nil", rfl, rfl, rfl, rfl, rfl, by simp, rfl, ?_, rfl, rfl⟩
    intro p
    simp [figures, q, c, linkPat]
  · refine ⟨rfl, rfl, by simp [figure, ConstPats], ?_, ?_, ?_, ?_⟩
    · simp only [figure, List.mem_cons, List.not_mem_nil, or_false, forall_eq_or_imp, forall_eq]
      refine ⟨⟨trivial, ?_, rfl, rfl⟩, ⟨trivial, ?_, rfl, rfl⟩, ⟨trivial, by simp [ConstPats], rfl, rfl⟩, trivial,
        by simp [ConstPats], rfl, rfl⟩
      · intro p hp; simp only [List.mem_singleton] at hp; subst hp; exact ⟨_, _, rfl⟩
      · intro p hp; simp only [List.mem_singleton] at hp; subst hp; exact ⟨_, _, rfl⟩
    · simp only [figure, List.mem_cons, List.not_mem_nil, or_false, forall_eq_or_imp, forall_eq]
      exact ⟨fun d h => absurd h (no_literal (.inl rfl)), fun d h => absurd h (no_literal (.inr (.inl rfl))),
        fun d _ => ⟨trivial, trivial⟩, fun d _ => ⟨trivial, trivial⟩⟩
    · simp only [figure, List.mem_cons, List.not_mem_nil, or_false, forall_eq_or_imp, forall_eq, List.nil_append,
        false_imp_iff, implies_true, and_true]
      refine ⟨fun p hp h => ?_, fun p hp h => ?_⟩
      · have e : p = .iri "type" := by simpa [q, c] using hp.symm
        subst e
        cases h with
        | link hl h => simp only [val, reg, Option.some.injEq] at hl; subst hl; simpa using circle_links h
        | variant hl => simp [val, reg] at hl
        | statement hl => simp [val, reg] at hl
        | sum hl => simp [val, reg] at hl
      · have e : p = .iri "type" := by simpa [q, c] using hp.symm
        subst e
        cases h with
        | link hl h => simp only [val, reg, Option.some.injEq] at hl; subst hl; simpa using square_links h
        | variant hl => simp [val, reg] at hl
        | statement hl => simp [val, reg] at hl
        | sum hl => simp [val, reg] at hl
    · simp only [figure, List.pairwise_cons, List.mem_cons, List.not_mem_nil, or_false, forall_eq_or_imp, forall_eq,
        List.Pairwise.nil, and_true, false_imp_iff, implies_true]
      have toText : ∀ x : Variant Term, (x.value.layout = .iri "circle" ∨ x.value.layout = .iri "square" ∨
          x.value.layout = .iri "blank") → Separate reg figure x ⟨"label", 0, val "text" 0, []⟩ := by
        intro x hx
        refine .literal (.textString text) (.iri "xsd:string") rfl rfl ?_
        rcases hx with h | h | h <;> rw [h]
        · exact no_literal (.inl rfl)
        · exact no_literal (.inr (.inl rfl))
        · exact no_literal (.inr (.inr rfl))
      refine ⟨⟨⟨?_, ?_⟩, ⟨?_, ?_⟩, ?_, ?_⟩, ⟨⟨?_, ?_⟩, ?_, ?_⟩, ?_, ?_⟩
      · exact .triple (.iri "type") (.iri "Square") (.product square) rfl (by simp [q, c]) (by simp [figure, q, c])
          fun h => by simpa using circle_writes h
      · exact .triple (.iri "type") (.iri "Circle") (.product circle) rfl (by simp [q, c]) (by simp [figure, q, c])
          fun h => by simpa using square_writes h
      · exact toText _ (.inl rfl)
      · exact .triple (.iri "type") (.iri "Circle") (.product circle) rfl (by simp [q, c]) (by simp [figure, q, c])
          text_writes
      · exact .triple (.iri "type") (.iri "Blank") (.unit blank) rfl (by simp [Layout.statements, blank, q, c])
          (by simp [figure, q, c]) fun h => by simpa using circle_writes h
      · exact .triple (.iri "type") (.iri "Circle") (.product circle) rfl (by simp [q, c]) (by simp [figure, q, c])
          fun h => by simpa using blank_writes h
      · exact toText _ (.inr (.inl rfl))
      · exact .triple (.iri "type") (.iri "Square") (.product square) rfl (by simp [q, c]) (by simp [figure, q, c])
          text_writes
      · exact .triple (.iri "type") (.iri "Blank") (.unit blank) rfl (by simp [Layout.statements, blank, q, c])
          (by simp [figure, q, c]) fun h => by simpa using square_writes h
      · exact .triple (.iri "type") (.iri "Square") (.product square) rfl (by simp [q, c]) (by simp [figure, q, c])
          fun h => by simpa using blank_writes h
      · exact .triple (.iri "type") (.iri "Blank") (.unit blank) rfl (by simp [Layout.statements, blank, q, c])
          (by simp [figure, q, c]) text_writes
      · exact toText _ (.inr (.inr rfl))
  · refine ⟨rfl, rfl, by simp [circle, ConstPats], ?_, ?_, ?_, ?_, ?_⟩
    · simp only [circle, List.mem_singleton, forall_eq]
      exact .inl ⟨_, .inl (TreeExample.isLink ..)⟩
    · simp [circle, TreeExample.link, Field.OnSelf]
    · simp [circle]
    · simp [circle]
    · simp [circle]
  · refine ⟨rfl, rfl, by simp [square, ConstPats], ?_, ?_, ?_, ?_, ?_⟩
    · simp only [square, List.mem_singleton, forall_eq]
      exact .inl ⟨_, .inl (TreeExample.isLink ..)⟩
    · simp [square, TreeExample.link, Field.OnSelf]
    · simp [square]
    · simp [square]
    · simp [square]
  · refine ⟨rfl, ?_⟩
    intro p hp; simp only [blank, List.mem_singleton] at hp; subst hp; exact ⟨_, _, rfl⟩
  · exact ⟨⟨rfl, rfl, rfl⟩, _, rfl⟩
  · exact ⟨⟨rfl, rfl, rfl⟩, _, rfl, by simp [Example.xsd]⟩

theorem reg_defined : ∀ ref l, reg ref = some l → ∀ f ∈ l.formats, ∃ l', reg f.layout = some l' := by
  refine reg_cases ?_ ?_ ?_ ?_ ?_ ?_ ?_ <;>
    simp [figures, figure, circle, square, TreeExample.link, Layout.formats, val, reg]

theorem trees (ref : Term) (l : Layout Term) (h : reg ref = some l) : TreeLayouts reg Example.xsd ref := by
  have : ∀ ref', Reaches reg ref ref' → ∃ l, reg ref' = some l := by
    intro ref' hr
    induction hr with
    | refl => exact ⟨l, h⟩
    | step _ h1 h2 => exact reg_defined _ _ h1 _ h2
  intro ref' hr
  obtain ⟨l', hl'⟩ := this ref' hr
  exact ⟨l', hl', reg_tree _ _ hl'⟩

theorem drawing_sorted : drawing.Sorted := by
  refine .list _ ?_
  simp only [List.mem_cons, List.not_mem_nil, or_false, forall_eq_or_imp, forall_eq]
  refine ⟨.map _ (by unfold SortedKeys; decide +kernel) ?_, .literal _, .map _ (by unfold SortedKeys; decide +kernel) ?_, .literal _⟩
  · simp only [List.mem_singleton, forall_eq]; exact .literal _
  · simp only [List.mem_singleton, forall_eq]; exact .literal _

theorem record_recoverable {layout : String} {l : ProductLayout Term} (hl : reg (.iri layout) = some (.product l))
    (h : l = circle ∨ l = square) (m : List (Value × Value)) : Recoverable reg (.iri layout) (.map m) := by
  refine .product (l := l) _ hl ?_
  intro k v f _ hf
  rcases h with rfl | rfl
  · simp only [circle, List.mem_singleton, TreeExample.link, Prod.mk.injEq] at hf
    obtain ⟨-, rfl⟩ := hf
    exact .leaf _ (by simp [val, reg, Layout.formats])
  · simp only [square, List.mem_singleton, TreeExample.link, Prod.mk.injEq] at hf
    obtain ⟨-, rfl⟩ := hf
    exact .leaf _ (by simp [val, reg, Layout.formats])

theorem drawing_recoverable : Recoverable reg (.iri "figures") drawing := by
  refine .ordered (l := figures) _ rfl (by simp) ?_
  simp only [List.mem_cons, List.not_mem_nil, or_false, forall_eq_or_imp, forall_eq]
  refine ⟨.sum (l := figure) _ [] _ _ rfl rfl ?_ (record_recoverable rfl (.inl rfl) _),
    .sum (l := figure) _ [_, _] _ [_] rfl rfl ?_ (.leaf _ (by simp [val, reg, Layout.formats])),
    .sum (l := figure) _ [_] _ _ rfl rfl ?_ (record_recoverable rfl (.inr rfl) _),
    .sum (l := figure) _ [_, _, _] _ [] rfl rfl ?_ (.leaf _ (by simp [val, reg, Layout.formats]))⟩ <;>
  simp [val, reg, Layout.rejects, aCircle, aSquare, circle, square, blank, TreeExample.link, Value.text]

theorem drawing_ids : (nodeIds reg 6 (.iri "figures") drawing).Nodup := by decide +kernel

/-! An identifier as a variant: it can be told apart by a triple. -/

/-- A reference to a circle: the circle itself, or its identifier, which has the type `Known`. -/
def mark : SumLayout Term :=
  { input := 1, intro := 0, dataset := [],
    variants := [
      { name := "known", intro := 0, value := val "id" 0, dataset := [q (.var 0) (c "type") (c "Known")] },
      { name := "circle", intro := 0, value := val "circle" 0, dataset := [q (.var 0) (c "type") (c "Circle")] }] }

/-- A list of references. -/
def marks : OrderedLayout Term := { figures with node := { figures.node with value := val "mark" 3 } }

/-- The registry. -/
def markReg : Registry Term
  | .iri "marks" => some (.ordered marks)
  | .iri "mark" => some (.sum mark)
  | .iri "id" => some (.id DeExample.ident)
  | .iri "circle" => some (.product circle)
  | .iri "number" => some (.number number)
  | _ => none

/-- The context. -/
def markCtx : DeCtx := { reg := markReg, isIri := fun _ => true, xsd := Example.xsd }

/-- Two identifiers and a circle. -/
def marked : Value := .list [.text "urn:a", aCircle, .text "urn:b"]

theorem mark_cases {P : Layout Term → Prop} (h1 : P (.ordered marks)) (h2 : P (.sum mark)) (h3 : P (.id DeExample.ident))
    (h4 : P (.product circle)) (h5 : P (.number number)) : ∀ ref l, markReg ref = some l → P l := by
  intro ref l h
  unfold markReg at h
  split at h <;> simp only [Option.some.injEq, reduceCtorEq] at h <;> subst h <;> assumption

theorem markReg_sorted : markReg.Sorted := by
  intro ref l h
  have := mark_cases (P := fun l => ∀ p, l = .product p → SortedKeys p.fields) (by simp) (by simp) (by simp)
    (by rintro p ⟨⟩; unfold SortedKeys; decide +kernel) (by simp) ref _ h
  exact this l rfl

theorem mark_circle_links {p : Term} (h : (Layout.product circle).Links markReg p) : p = .iri "radius" := by
  obtain ⟨e, he, h⟩ := h
  simp only [circle, List.mem_singleton] at he
  subst he
  rcases h with h | h
  · have := h.2.1
    simp only [TreeExample.link, q, c, linkPat, List.cons.injEq, Quad.mk.injEq, Pattern.res.injEq] at this
    exact this.1.2.1.symm
  · simp [Field.OnSelf, TreeExample.link] at h

theorem mark_circle_writes {p o : Term} (h : LayoutWrites markReg p o (.iri "circle")) : p = .iri "radius" := by
  cases h with
  | statement hl h => simp only [markReg, Option.some.injEq] at hl; subst hl; simp [Layout.statements, circle] at h
  | link hl h => simp only [markReg, Option.some.injEq] at hl; subst hl; exact mark_circle_links h
  | variant hl => simp [markReg] at hl
  | sum hl => simp [markReg] at hl

theorem mark_id_writes {p o : Term} : ¬ LayoutWrites markReg p o (.iri "id") := by
  intro h
  cases h with
  | statement hl h => simp only [markReg, Option.some.injEq] at hl; subst hl; simp [Layout.statements] at h
  | link hl h => simp only [markReg, Option.some.injEq] at hl; subst hl; exact h
  | variant hl => simp [markReg] at hl
  | sum hl => simp [markReg] at hl

theorem mark_no_literal {d : Term} {ref : String} (h : ref = "circle" ∨ ref = "id") :
    ¬ WritesLiteral markReg d (.iri ref) := by
  intro h'
  rcases h with rfl | rfl <;> cases h' with
  | data hl h => simp only [markReg, Option.some.injEq] at hl; subst hl; simp [Layout.literalType] at h
  | sum hl => simp [markReg] at hl

theorem markReg_tree : ∀ ref l, markReg ref = some l → l.Tree markReg Example.xsd := by
  refine mark_cases ?_ ?_ ?_ ?_ ?_
  · refine ⟨.iri "first", .iri "rest", "nil", rfl, rfl, rfl, rfl, rfl, by simp, rfl, ?_, rfl, rfl⟩
    intro p
    simp [marks, figures, q, c, linkPat]
  · refine ⟨rfl, rfl, by simp [mark, ConstPats], ?_, ?_, ?_, ?_⟩
    · simp only [mark, List.mem_cons, List.not_mem_nil, or_false, forall_eq_or_imp, forall_eq]
      refine ⟨⟨trivial, ?_, rfl, rfl⟩, trivial, ?_, rfl, rfl⟩
      · intro p hp; simp only [List.mem_singleton] at hp; subst hp; exact ⟨_, _, rfl⟩
      · intro p hp; simp only [List.mem_singleton] at hp; subst hp; exact ⟨_, _, rfl⟩
    · simp only [mark, List.mem_cons, List.not_mem_nil, or_false, forall_eq_or_imp, forall_eq]
      exact ⟨fun d h => absurd h (mark_no_literal (.inr rfl)), fun d h => absurd h (mark_no_literal (.inl rfl))⟩
    · simp only [mark, List.mem_cons, List.not_mem_nil, or_false, forall_eq_or_imp, forall_eq, List.nil_append]
      refine ⟨fun p hp h => ?_, fun p hp h => ?_⟩
      · cases h with
        | link hl h => simp only [val, markReg, Option.some.injEq] at hl; subst hl; exact h
        | variant hl => simp [val, markReg] at hl
        | statement hl => simp [val, markReg] at hl
        | sum hl => simp [val, markReg] at hl
      · have e : p = .iri "type" := by simpa [q, c] using hp.symm
        subst e
        cases h with
        | link hl h => simp only [val, markReg, Option.some.injEq] at hl; subst hl; simpa using mark_circle_links h
        | variant hl => simp [val, markReg] at hl
        | statement hl => simp [val, markReg] at hl
        | sum hl => simp [val, markReg] at hl
    · simp only [mark, List.pairwise_cons, List.mem_cons, List.not_mem_nil, or_false, forall_eq,
        List.Pairwise.nil, and_true, false_imp_iff, implies_true]
      refine ⟨?_, ?_⟩
      · exact .triple (.iri "type") (.iri "Circle") (.product circle) rfl (by simp [q, c]) (by simp [mark, q, c])
          mark_id_writes
      · exact .triple (.iri "type") (.iri "Known") (.id DeExample.ident) rfl (by simp [q, c]) (by simp [mark, q, c])
          fun h => by simpa using mark_circle_writes h
  · exact ⟨rfl, rfl, rfl⟩
  · refine ⟨rfl, rfl, by simp [circle, ConstPats], ?_, ?_, ?_, ?_, ?_⟩
    · simp only [circle, List.mem_singleton, forall_eq]
      exact .inl ⟨_, .inl (TreeExample.isLink ..)⟩
    · simp [circle, TreeExample.link, Field.OnSelf]
    · simp [circle]
    · simp [circle]
    · simp [circle]
  · exact ⟨⟨rfl, rfl, rfl⟩, _, rfl, by simp [Example.xsd]⟩

theorem markReg_defined : ∀ ref l, markReg ref = some l → ∀ f ∈ l.formats, ∃ l', markReg f.layout = some l' := by
  refine mark_cases ?_ ?_ ?_ ?_ ?_ <;>
    simp [marks, mark, circle, TreeExample.link, Layout.formats, val, markReg]

theorem markTrees (ref : Term) (l : Layout Term) (h : markReg ref = some l) : TreeLayouts markReg Example.xsd ref := by
  have : ∀ ref', Reaches markReg ref ref' → ∃ l, markReg ref' = some l := by
    intro ref' hr
    induction hr with
    | refl => exact ⟨l, h⟩
    | step _ h1 h2 => exact markReg_defined _ _ h1 _ h2
  intro ref' hr
  obtain ⟨l', hl'⟩ := this ref' hr
  exact ⟨l', hl', markReg_tree _ _ hl'⟩

theorem marked_sorted : marked.Sorted := by
  refine .list _ ?_
  simp only [List.mem_cons, List.not_mem_nil, or_false, forall_eq_or_imp, forall_eq]
  refine ⟨.literal _, .map _ (by unfold SortedKeys; decide +kernel) ?_, .literal _⟩
  simp only [List.mem_singleton, forall_eq]
  exact .literal _

theorem marked_recoverable : Recoverable markReg (.iri "marks") marked := by
  have hc : Recoverable markReg (.iri "circle") aCircle := by
    refine .product (l := circle) _ rfl ?_
    intro k v f _ hf
    simp only [circle, List.mem_singleton, TreeExample.link, Prod.mk.injEq] at hf
    obtain ⟨-, rfl⟩ := hf
    exact .leaf _ (by simp [val, markReg, Layout.formats])
  refine .ordered (l := marks) _ rfl (by simp) ?_
  simp only [List.mem_cons, List.not_mem_nil, or_false, forall_eq_or_imp, forall_eq]
  refine ⟨.sum (l := mark) _ [] _ _ rfl rfl ?_ (.leaf _ (by simp [val, markReg, Layout.formats])),
    .sum (l := mark) _ [_] _ [] rfl rfl ?_ hc,
    .sum (l := mark) _ [] _ _ rfl rfl ?_ (.leaf _ (by simp [val, markReg, Layout.formats]))⟩ <;>
  simp [val, markReg, Layout.rejects, aCircle, circle, Value.text]

theorem marked_ids : nodeIds markReg 6 (.iri "marks") marked = ["urn:a", "urn:b"] := by decide +kernel

end Verif.SumExample
