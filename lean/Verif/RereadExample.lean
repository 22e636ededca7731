import Verif.ReproduceExample
import Verif.RereadSpec

/-! # Datasets that are read, written, and read again, used to show that the hypotheses of the theorems can be met -/

set_option linter.unusedSimpArgs false

namespace Verif.RereadExample

open DeExample Dehydrate ReproduceExample

/-- A literal. -/
def lit (s ty : String) : Term := .literal ⟨s, .any ty⟩

/-- A list of two persons. Whom Alice knows is unknown to the layouts. -/
def persons : List (Quad Term) :=
  [⟨.blank "l1", .iri "first", .iri "alice", none⟩, ⟨.blank "l1", .iri "rest", .blank "l2", none⟩,
   ⟨.blank "l2", .iri "first", .iri "bob", none⟩, ⟨.blank "l2", .iri "rest", .iri "nil", none⟩,
   ⟨.iri "alice", .iri "type", .iri "Person", none⟩, ⟨.iri "alice", .iri "name", lit "Alice" "xsd:string", none⟩,
   ⟨.iri "alice", .iri "age", lit "1" "xsd:decimal", none⟩, ⟨.iri "alice", .iri "knows", .iri "bob", none⟩,
   ⟨.iri "bob", .iri "type", .iri "Person", none⟩, ⟨.iri "bob", .iri "name", lit "Bob" "xsd:string", none⟩]

/-- Alice. -/
def alice : TypedValue Term :=
  .map [(.text "age", .literal (.number 1 (.iri "number"))), (.text "id", .literal (.id "alice" (.iri "id"))),
    (.text "name", .literal (.textString "Alice" (.iri "text")))] (.iri "person")

/-- Bob. -/
def bob : TypedValue Term :=
  .map [(.text "id", .literal (.id "bob" (.iri "id"))), (.text "name", .literal (.textString "Bob" (.iri "text")))] (.iri "person")

/-- The list that is read. -/
def both : TypedValue Term := .list [alice, bob] (.iri "members")

theorem read_both : Hydrate.hydrate (HyCtx.ofTerms TreeExample.ctx.reg TreeExample.ctx.xsd le persons) 9 none (.iri "members")
    [.blank "l1"] = .ok both := by decide +kernel

/-- What is written. -/
def written : List (Quad Term) :=
  [⟨.blank "i", .iri "first", .iri "alice", none⟩, ⟨.blank "i", .iri "rest", .blank "b", none⟩,
   ⟨.iri "alice", .iri "type", .iri "Person", none⟩, ⟨.iri "alice", .iri "age", lit "1" "xsd:decimal", none⟩,
   ⟨.iri "alice", .iri "name", lit "Alice" "xsd:string", none⟩,
   ⟨.blank "b", .iri "first", .iri "bob", none⟩, ⟨.blank "b", .iri "rest", .iri "nil", none⟩,
   ⟨.iri "bob", .iri "type", .iri "Person", none⟩, ⟨.iri "bob", .iri "name", lit "Bob" "xsd:string", none⟩]

theorem write_both : dehydrate TreeExample.ctx 9 both.untype (.iri "members") ReproduceExample.opts = .ok (written, [.blank "i"]) := by
  decide +kernel

theorem write_alice : dehydrate TreeExample.ctx 9 alice.untype (.iri "person") ReproduceExample.opts =
    .ok ([⟨.iri "alice", .iri "type", .iri "Person", none⟩, ⟨.iri "alice", .iri "age", lit "1" "xsd:decimal", none⟩,
      ⟨.iri "alice", .iri "name", lit "Alice" "xsd:string", none⟩], [.iri "alice"]) := by
  decide +kernel

theorem read_alice : Hydrate.hydrate (HyCtx.ofTerms TreeExample.ctx.reg TreeExample.ctx.xsd le persons) 9 none (.iri "person")
    [.iri "alice"] = .ok alice := by decide +kernel

theorem reg_closed : TreeExample.reg.Closed := by
  unfold Registry.Closed
  refine TreeExample.reg_cases ?_ ?_ ?_ ?_ ?_ ?_ ?_ ?_ <;>
    simp [TreeExample.club, TreeExample.person, TreeExample.members, TreeExample.place, TreeExample.link, TreeExample.self, text,
      number, DeExample.ident, tags, Layout.Closed, ItemLayout.Closed, PatsBelow, patsVars, QuadPat.vars, Pattern.vars, ValueFormat.Below,
      Pattern.Below, q, val, c]

theorem reg_distinctKeys : TreeExample.reg.DistinctKeys := by
  intro ref l h
  have := TreeExample.reg_cases (P := fun l => ∀ p, l = .product p → (p.fields.map Prod.fst).Nodup)
    (by rintro p ⟨⟩; decide +kernel) (by rintro p ⟨⟩; decide +kernel) (by simp) (by simp) (by simp) (by simp) (by simp)
    (by simp) ref _ h
  exact this l rfl

theorem reg_reversible : TreeExample.reg.Reversible where
  binds := by
    refine TreeExample.reg_cases ?_ ?_ ?_ ?_ ?_ ?_ ?_ ?_ <;>
      simp [Layout.BindsIntro, TreeExample.club, TreeExample.person, TreeExample.members, TreeExample.place, tags] <;> omega
  graph := by
    refine TreeExample.reg_cases ?_ ?_ ?_ ?_ ?_ ?_ ?_ ?_ <;>
      simp [Layout.formats, TreeExample.club, TreeExample.person, TreeExample.members, TreeExample.place, TreeExample.link,
        TreeExample.self, tags, val]

theorem reg_noSum (ref : Term) (l : SumLayout Term) : TreeExample.reg ref ≠ some (.sum l) := by
  intro h
  have := TreeExample.reg_cases (P := fun l' => ∀ l, l' ≠ .sum l) (by simp) (by simp) (by simp) (by simp) (by simp) (by simp)
    (by simp) (by simp) ref _ h
  exact this l rfl

theorem constant_iri (t : Term) (h : TreeExample.reg.HasConstant t) : ∃ i, t = .iri i := by
  obtain ⟨ref, l, hl, h⟩ := h
  revert h
  refine TreeExample.reg_cases (P := fun l => l.HasConstant t → ∃ i, t = .iri i) ?_ ?_ ?_ ?_ ?_ ?_ ?_ ?_ ref l hl <;> intro h <;>
    simp [Layout.HasConstant, PatsHaveConstant, ValueFormat.HasConstant, TreeExample.club, TreeExample.person, TreeExample.members,
      TreeExample.place, TreeExample.link, TreeExample.self, text, number, DeExample.ident, tags, q, val, c] at h <;>
    grind

theorem both_decided : WellDecided TreeExample.reg both := by
  refine .list ?_
  simp only [List.mem_cons, List.not_mem_nil, or_false, forall_eq_or_imp, forall_eq]
  refine ⟨.map ?_, .map ?_⟩ <;> simp only [List.mem_cons, List.not_mem_nil, or_false, forall_eq_or_imp, forall_eq]
  · exact ⟨.literal _, .literal _, .literal _⟩
  · exact ⟨.literal _, .literal _⟩

theorem alice_decided : WellDecided TreeExample.reg alice := by
  refine .map ?_
  simp only [List.mem_cons, List.not_mem_nil, or_false, forall_eq_or_imp, forall_eq]
  exact ⟨.literal _, .literal _, .literal _⟩

/-- The blank nodes in use in the dataset. -/
theorem uses_blank {inputs : List Term} (hi : ∀ t ∈ inputs, t = .blank "l1" ∨ t = .iri "alice") {s : String}
    (h : (HyCtx.ofTerms TreeExample.ctx.reg TreeExample.ctx.xsd le persons).Uses none inputs (.blank s)) : s = "l1" ∨ s = "l2" := by
  rcases h with ⟨q, hq, h⟩ | h | h | h
  · simp only [HyCtx.ofTerms, persons, List.mem_cons, List.not_mem_nil, or_false] at hq
    rcases hq with rfl | rfl | rfl | rfl | rfl | rfl | rfl | rfl | rfl | rfl <;> simp [Quad.Has, lit] at h <;> simp [h]
  · obtain ⟨i, hi⟩ := constant_iri _ h
    exact nomatch hi
  · exact nomatch h
  · rcases hi _ h with h | h
    · injection h with h; exact .inl h
    · exact nomatch h

theorem names_new {inputs : List Term} (hi : ∀ t ∈ inputs, t = .blank "l1" ∨ t = .iri "alice") :
    NewNames TreeExample.ctx.xsd ((HyCtx.ofTerms TreeExample.ctx.reg TreeExample.ctx.xsd le persons).Uses none inputs) ReproduceExample.opts
      inputs := by
  have key : ∀ (i : Nat) (ch : Char), ch ≠ 'l' → String.ofList (List.replicate (i + 1) ch) ≠ "l1" ∧
      String.ofList (List.replicate (i + 1) ch) ≠ "l2" := by
    intro i ch hch
    constructor <;>
    · intro h
      have := congrArg String.toList h
      simp [List.replicate_succ] at this
      exact hch this.1
  refine ⟨fun i u hu hw => ?_, fun i u hu hw => ?_, fun i => ⟨_, rfl⟩, fun i => .inl ⟨_, rfl⟩⟩
  · have := canonical _ _ hw
    subst this
    have k := key i 'b' (by decide)
    rcases uses_blank hi hu with h | h
    · exact k.1 h
    · exact k.2 h
  · have := canonical _ _ hw
    subst this
    have k := key i 'i' (by decide)
    rcases uses_blank hi hu with h | h
    · exact absurd h k.1
    · exact absurd h k.2

/-! ## A node read at two places -/

/-- A person, with a home. -/
def resident : ProductLayout Term :=
  { input := 1, intro := 0, dataset := [], fields := [TreeExample.link "home" "home" true, TreeExample.self "id" "id"] }

/-- A home. -/
def home : ProductLayout Term := { input := 1, intro := 0, dataset := [], fields := [TreeExample.link "text" "city" true] }

/-- A book has an author and an editor. -/
def book : ProductLayout Term :=
  { input := 1, intro := 0, dataset := [],
    fields := [TreeExample.link "resident" "author" true, TreeExample.link "resident" "editor" true] }

/-- The layouts. -/
def bookReg : Registry Term
  | .iri "book" => some (.product book)
  | .iri "resident" => some (.product resident)
  | .iri "home" => some (.product home)
  | .iri "text" => some (.textString text)
  | .iri "id" => some (.id DeExample.ident)
  | _ => none

/-- The context. -/
def bookCtx : DeCtx := { reg := bookReg, isIri := fun _ => true, xsd := Example.xsd }

/-- Alice is author and editor. -/
def bookQuads : List (Quad Term) :=
  [⟨.iri "book", .iri "author", .iri "alice", none⟩, ⟨.iri "book", .iri "editor", .iri "alice", none⟩,
   ⟨.iri "alice", .iri "home", .blank "h", none⟩, ⟨.blank "h", .iri "city", lit "Paris" "xsd:string", none⟩]

/-- Alice, with a home. -/
def aResident : TypedValue Term :=
  .map [(.text "home", .map [(.text "city", .literal (.textString "Paris" (.iri "text")))] (.iri "home")),
    (.text "id", .literal (.id "alice" (.iri "id")))] (.iri "resident")

/-- The book that is read. -/
def aBook : TypedValue Term := .map [(.text "author", aResident), (.text "editor", aResident)] (.iri "book")

/-- What is written: Alice has two homes. -/
def bookWritten : List (Quad Term) :=
  [⟨.blank "i", .iri "author", .iri "alice", none⟩, ⟨.iri "alice", .iri "home", .blank "b", none⟩,
   ⟨.blank "b", .iri "city", lit "Paris" "xsd:string", none⟩, ⟨.blank "i", .iri "editor", .iri "alice", none⟩,
   ⟨.iri "alice", .iri "home", .blank "bb", none⟩, ⟨.blank "bb", .iri "city", lit "Paris" "xsd:string", none⟩]

end Verif.RereadExample
