import Verif.CompactCli
import Verif.Props.Cli
import Verif.Props.Compact
import Verif.Props.Data

/-!
# Property C71 (round trip of JSON documents through the command line tool)

The specification is in `Verif/CompactSpec.lean` (`SLayout.Compact`).
-/

set_option linter.unusedSectionVars false
set_option linter.unusedSimpArgs false

namespace Verif.Props

open Verif.Dehydrate

/-- The command line tool is run with compact layout files, and possibly the prelude. -/
structure CompactCli (env : CommandEnv) (args : CliArgs) : Prop where
  terms : env.load.ctx.OverTerms
  order : TotalOrder env.load.ctx.leQ
  laws : XsdLaws env.xsd
  boolean : env.xsd.boolean = "http://www.w3.org/2001/XMLSchema#boolean"
  decimal : ∀ n ∈ ["unsignedByte", "unsignedShort", "unsignedInt", "unsignedLong", "byte", "short", "int", "long"],
    env.xsd.isDecimal (xsdIri n) = true
  prelude : env.prelude = preludeRegistry Term.iri
  compact : ∀ j, .json j ∈ args.layouts ++ args.includes → ∀ l, parseLayout env.load.parse j = .ok l →
    ∀ l' env', SubDef env.load.ctx.lib LexEnv.empty l env' l' → l'.Compact env.load.ctx.lib env.xsd env'

theorem loads_file {R : Type} [DecidableEq R] {env : LoadEnv R} {n k : Nat} {fs : List SourceFile} {ds : List (FileDefs R)}
    (h : Loads env n k fs ds) : ∀ d ∈ ds, ∃ j n k, .json j ∈ fs ∧ loadDocument env n k j = .ok d := by
  induction h with
  | nil => intro d hd; cases hd
  | cons h _ ih =>
    intro d hd
    rcases List.mem_cons.1 hd with rfl | hd
    · exact ⟨_, _, _, .head _, h⟩
    · obtain ⟨j, n, k, hj, h'⟩ := ih d hd
      exact ⟨j, n, k, .tail _ hj, h'⟩

theorem mem_of_lookup' {α : Type} {m : List (Term × α)} {r : Term} {x : α} (h : m.lookup r = some x) : (r, x) ∈ m := by
  induction m with
  | nil => cases h
  | cons y m ih =>
    obtain ⟨r', y⟩ := y
    by_cases hr : r = r'
    · subst hr
      simp only [List.lookup_cons, beq_self_eq_true, Option.some.injEq] at h
      subst h
      exact .head _
    · simp only [List.lookup_cons, beq_false_of_ne hr] at h
      exact .tail _ (ih h)

/-- Every layout of the registry given to the commands is a tree layout. -/
theorem cli_layout {env : CommandEnv} {args : CliArgs} (h : CompactCli env args) {reg : Registry Term} {d : DefaultLayout Term}
    (hp : prepare env.load env.prelude args = .ok (reg, d)) {ref : Term} {a : Layout Term} (ha : reg ref = some a) :
    a.Tree reg env.xsd ∧ (∀ p, a = .product p → SortedKeys p.fields) ∧ a.PlainSum reg := by
  obtain ⟨ds, hl, h1, h2⟩ := C36_cli _ _ _ _ _ hp
  by_cases hr : ∀ d ∈ ds, ref ∉ d.2.1.keys
  · rw [h2 ref hr] at ha
    split at ha
    · cases ha
    · rw [h.prelude] at ha
      obtain ⟨h3, h4, h5⟩ := prelude_tree reg h.boolean h.decimal ha
      exact ⟨h3, fun p hp => absurd hp (h4 p), fun s hs => absurd hs (h5 s)⟩
  · simp only [not_forall, not_not] at hr
    obtain ⟨d, hd, hk⟩ := hr
    obtain ⟨x, hx⟩ := Option.isSome_iff_exists.1 (mem_keys_iff.1 hk)
    obtain ⟨j, n, k, hj, hload⟩ := loads_file hl d hd
    obtain ⟨l, b, hparse, hbuild, hall, -⟩ := loadDocument_ok hload
    have hreg : ∀ r x, d.2.1.lookup r = some x → reg r = some x.1 := fun r x hx => h1 d hd r x.1 x.2 (mem_of_lookup' hx)
    have := hreg ref x hx
    rw [ha] at this
    cases this
    refine compact_layout h.terms h.order h.boolean (defs := [l]) (.define (b := ⟨[], k⟩) _ l _ (.empty k) hbuild) hall ?_ ?_ hreg hx
    · intro l₀ hl₀ l' env' hs
      obtain rfl := List.mem_singleton.1 hl₀
      exact h.compact j hj _ hparse l' env' hs
    · intro l₀ hl₀ l' env' hs
      obtain rfl := List.mem_singleton.1 hl₀
      exact parsed_sorted hparse hs

/-- **C71.** With compact layout files, the layouts they refer to being defined: `tldr dehydrate` turns a JSON document that
conforms to the layout into a dataset, and `tldr hydrate` turns this dataset, with the right subject, into a JSON document
that stands for the same tree, up to the order of unordered lists. Numbers must be greater than `-1` (see C35), ordered lists not
empty, and identifiers of objects not repeated. -/
theorem C71_cli_round_trip_partial (env : CommandEnv) (args : CliArgs) (h : CompactCli env args) (reg : Registry Term) (d : DefaultLayout Term)
    (hp : prepare env.load env.prelude args = .ok (reg, d)) (layout : Option Term) (ref : Term) (hd : d.get layout = .ok ref)
    (href : ∀ ref', Reaches reg ref ref' → (reg ref').isSome = true)
    (order : List (Quad IRes) → List (Quad IRes)) (hord : ∀ l, (order l).Perm l) (hopt : env.options = .default order)
    (j : Json) (v : Value) (hj : j.toValue = .ok v) (hconf : Conforms reg env.isIri ref v)
    (hnum : v.AllNumbers fun n => -1 < n) (hprint : v.Printable env.xsd) (hne : Recoverable reg ref v)
    (hid : ∀ n, (nodeIds reg n ref v).Nodup) :
    ∃ N, ∀ n, N ≤ n → ∃ dataset subject j' w M,
      dehydrateCommand { env with depth := n } args layout (some j) = .ok dataset ∧
      (∀ m, M ≤ m → hydrateCommand { env with depth := m } args layout [subject] (some dataset) = .ok j') ∧
      j'.toValue = .ok w ∧ SameTree reg ref v w := by
  have hwf := toValue_wf j v hj
  have htree : TreeLayouts reg env.xsd ref := fun ref' hr => by
    obtain ⟨l, hl⟩ := Option.isSome_iff_exists.1 (href ref' hr)
    exact ⟨l, hl, (cli_layout h hp hl).1⟩
  have hsort : reg.Sorted := fun ref' l hl => (cli_layout h hp hl).2.1 l rfl
  have hac : reg.AcyclicSums := plain_acyclic fun r a ha => (cli_layout h hp ha).2.2
  obtain ⟨N, hN⟩ := C17_conforming_round_trip_partial ⟨reg, env.isIri, env.xsd⟩ env.le env.options h.laws hsort
    (hopt ▸ default_blank_names order) (by rw [hopt]; exact hord) ref htree hac v hwf.sorted hconf hprint hne hid
  refine ⟨N, fun n hn => ?_⟩
  obtain ⟨dataset, subject, w, M, h1, h2, h3⟩ := hN n hn
  obtain ⟨hjson, hwf'⟩ := h3.json ((toValue_compatible j v hj).and hnum) hwf
  obtain ⟨j', hj'⟩ := (C35_domain_partial w.untype).2 hjson
  refine ⟨dataset, subject, j', w.untype, M, ?_, fun m hm => ?_, C35_roundtrip _ hwf' _ hj', h3⟩
  · simp only [dehydrateCommand, hp, hd, hj, Out.bind, Out.ofTotal, h1, Out.mapErr]
  · have := h2 m hm
    simp only [hydrateCommand, hp, hd, Out.bind, this, Out.mapErr, hj']

/-! ## The hypotheses can be met -/

namespace CcExample

open CoExample (ex alice person)

/-- The definition of `CoExample.person`: `{ "type": "record", "id": "https://example.org/Person", "prefixes": { "ex":
"https://example.org/" }, "fields": { "id": { "intro": [], "required": true, "value": { "layout": { "type": "id" }, "input":
"_:self" } }, "name": … } }`. -/
def personDoc : Json :=
  .object [("type", .string "record"), ("id", .string "https://example.org/Person"),
    ("prefixes", .object [("ex", .string "https://example.org/")]),
    ("fields", .object [
      ("id", .object [("intro", .array []), ("required", .boolean true),
        ("value", .object [("layout", .object [("type", .string "id")]), ("input", .string "_:self")])]),
      ("name", .object [("property", .string "ex:name"), ("required", .boolean true),
        ("value", .object [("type", .string "string")])]),
      ("friends", .object [("intro", .array []), ("required", .boolean true),
        ("value", .object [("input", .string "_:self"), ("layout", .object [("type", .string "set"),
          ("item", .object [("property", .string "ex:knows"), ("value", .string "https://example.org/Person")])])])])])]

theorem parse_person : parseLayout SpExample.lib personDoc = .ok person := by rfl

def xsd : Xsd := { CoExample.xsd with isDecimal := fun _ => true }

/-- The command line tool. -/
noncomputable def env : CommandEnv where
  load := ⟨SpExample.lib, CoExample.ctx, false, 0⟩
  prelude := preludeRegistry Term.iri
  xsd := xsd
  isIri := CoExample.isIri
  le _ _ := true
  options := .default id
  depth := 8

/-- `tldr -l person.json --no-prelude`. -/
def args : CliArgs := ⟨[.json personDoc], [], true⟩

theorem prepared : prepare env.load env.prelude args = .ok (CoExample.reg, .some (ex "Person")) := by
  have h : (loadDocument env.load 0 0 personDoc) = .ok (ex "Person", CoExample.layouts, CoExample.built.next) := by
    have h1 : parseLayout env.load.parse personDoc = .ok person := parse_person
    have h2 : person.buildWithContext env.load.ctx ⟨[], 0⟩ = (.ok (ex "Person"), CoExample.built) := CoExample.person_ok
    have h3 : buildAll env.load.debug env.load.fuel CoExample.built.layouts = .ok CoExample.layouts := CoExample.layouts_ok
    simp only [loadDocument, h1, Out.mapErr, Out.bind, h2, h3, Out.ofTotal]
  have h' : insertLayouts env.load.ctx.le CoExample.layouts [] = .ok CoExample.layouts := by decide +kernel
  simp only [prepare, args, loadLayouts, loadLayout, h, h', loadIncludes, Out.bind, Out.mapErr, DefaultLayout.set, if_true]
  rw [C36_absent]
  rfl

theorem compact : CompactCli env args where
  terms := CoExample.compact.terms
  order := CoExample.compact.order
  laws := ⟨CoExample.xsd_laws.bool, CoExample.xsd_laws.decimal⟩
  boolean := rfl
  decimal _ _ := rfl
  prelude := rfl
  compact := by
    intro j hj l hl l' env' hs
    have hj : SourceFile.json j = .json personDoc := by simpa [args] using hj
    cases hj
    cases hl.symm.trans parse_person
    have := CoExample.compact.compact person (.head _) l' env' hs
    rcases CoExample.sub_cases hs with ⟨rfl, rfl⟩ | rfl | rfl | rfl
    · exact this
    · exact this
    · exact this
    · exact this

/-- `{ "id": "https://example.org/alice", "name": "Alice", "friends": [ … ] }`. -/
def aliceDoc : Json :=
  .object [("id", .string "https://example.org/alice"), ("name", .string "Alice"), ("friends", .array [
    .object [("name", .string "Bob"), ("id", .string "https://example.org/bob"), ("friends", .array [])]])]

theorem read_alice : aliceDoc.toValue = .ok alice := by decide +kernel

theorem alice_numbers : alice.AllNumbers fun n => -1 < n := by
  have bob : CoExample.bob.AllNumbers fun n => -1 < n := by
    refine .map _ ?_ ?_ <;> simp only [List.mem_cons, List.not_mem_nil, or_false, forall_eq_or_imp, forall_eq]
    · exact ⟨.textString _, .textString _, .textString _⟩
    · exact ⟨.list _ (by simp), .textString _, .textString _⟩
  refine .map _ ?_ ?_ <;> simp only [List.mem_cons, List.not_mem_nil, or_false, forall_eq_or_imp, forall_eq]
  · exact ⟨.textString _, .textString _, .textString _⟩
  · exact ⟨.list _ (by simpa using bob), .textString _, .textString _⟩

end CcExample

example := C71_cli_round_trip_partial CcExample.env CcExample.args CcExample.compact CoExample.reg _ CcExample.prepared none
  (CoExample.ex "Person") rfl CoExample.defined id (fun _ => .refl _) rfl CcExample.aliceDoc CoExample.alice CcExample.read_alice
  CoExample.alice_conforms CcExample.alice_numbers CoExample.alice_printable CoExample.alice_recoverable CoExample.alice_ids

end Verif.Props
