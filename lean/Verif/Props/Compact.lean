import Verif.CompactLemmas
import Verif.DeriveRound
import Verif.Props.Names
import Verif.Props.RoundTrip

/-!
# Property C70 (round trip of compact layout definitions)

The specification is in `Verif/CompactSpec.lean` (`SLayout.Compact`).
-/

set_option linter.unusedSectionVars false
set_option linter.unusedSimpArgs false

namespace Verif.Props

open Verif.Dehydrate

/-- Every compiled layout is the meaning of a definition, or of a definition nested in it, the nested ones being found in the
builder. -/
theorem compiled_subdef {c : BuildCtx Term} {defs : List SLayout} {b : Builder Term} (hb : b.Compiled c defs) (ref : Term)
    (e : Entry Term) (he : b.layouts.lookup ref = some e) :
    ∃ l ∈ defs, ∃ l' env reg, SubDef c.lib LexEnv.empty l env l' ∧ env.names = [] ∧ EntryMeans c reg l' env e ∧
      ∀ r a, reg r = some a → ∃ e', b.layouts.lookup r = some e' ∧ e'.layout = a := by
  induction hb with
  | empty n => cases he
  | @define defs b b' n l r _ h ih =>
    rcases new_layouts c l _ b' r h ref e he with h' | ⟨l', env, hs, hn, hm⟩
    · obtain ⟨l₀, hl₀, l', env, reg, hs, hn, hm, hreg⟩ := ih h'
      refine ⟨l₀, .tail _ hl₀, l', env, reg, hs, hn, hm, fun r' a ha => ?_⟩
      obtain ⟨e', he', rfl⟩ := hreg r' a ha
      exact ⟨e', (C24_partial c l _ b' _ h).1 (by simp) r' e' he', rfl⟩
    · refine ⟨l, .head _, l', env, _, hs, hn, hm, fun r' a ha => ?_⟩
      simpa using ha

theorem buildAll_lookup {R : Type} [DecidableEq R] {debug : Bool} {fuel : Nat} (es : List (R × Entry R))
    (ls : List (R × Layout R × List (R × R))) (h : buildAll debug fuel es = .ok ls) (ref : R) (e : Entry R)
    (he : es.lookup ref = some e) : ∃ a, ls.lookup ref = some a ∧ e.layout.build debug fuel = .ok a.1 := by
  induction es generalizing ls with
  | nil => cases he
  | cons x es ih =>
    obtain ⟨r, x⟩ := x
    simp only [buildAll, Out.bind_eq_ok, Out.ok.injEq] at h
    obtain ⟨a', ha', ls', hls', rfl⟩ := h
    by_cases hr : ref = r
    · subst hr
      simp only [List.lookup_cons, beq_self_eq_true] at he ⊢
      cases he
      exact ⟨_, rfl, ha'⟩
    · simp only [List.lookup_cons, beq_false_of_ne hr] at he ⊢
      exact ih ls' hls' he

/-- The layouts of compact definitions, once built, are tree layouts in any registry that has them. -/
theorem compact_layout {c : BuildCtx Term} {xsd : Xsd} (hc : c.OverTerms) (ho : TotalOrder c.leQ) (hbool : xsd.boolean = xsdBoolean)
    {defs : List SLayout} {b : Builder Term} (hb : b.Compiled c defs) {debug : Bool} {fuel : Nat}
    {ls : List (Term × Layout Term × List (Term × Term))} (hls : buildAll debug fuel b.layouts = .ok ls)
    (hcompact : ∀ l ∈ defs, ∀ l' env, SubDef c.lib LexEnv.empty l env l' → l'.Compact c.lib xsd env)
    (hsorted : ∀ l ∈ defs, ∀ l' env, SubDef c.lib LexEnv.empty l env l' → l'.SortedFields) {reg : Registry Term}
    (hreg : ∀ r x, ls.lookup r = some x → reg r = some x.1) {ref : Term} {x : Layout Term × List (Term × Term)}
    (hx : ls.lookup ref = some x) : x.1.Tree reg xsd ∧ (∀ p, x.1 = .product p → SortedKeys p.fields) ∧ x.1.PlainSum reg := by
  obtain ⟨e, he, hbuild⟩ := lookup_buildAll _ _ hls ref x hx
  obtain ⟨l, hl, l', env, areg, hs, hn, hm, hareg⟩ := compiled_subdef hb ref e he
  refine compact_tree hc ho hbool (reg := areg) (fun r a ha => ?_) hn (hcompact l hl l' env hs)
    (fun h env' h1 h2 l₂ h3 => hcompact l hl l₂ env'.nested (.nested hs h1 h2 h3)) (hsorted l hl l' env hs) hm.1 hbuild
  obtain ⟨e', he', rfl⟩ := hareg r a ha
  obtain ⟨a', ha', hb'⟩ := buildAll_lookup _ _ hls r e' he'
  exact ⟨a'.1, hreg r a' ha', hb'⟩

theorem _root_.Verif.CompactSet.layout {c : BuildCtx Term} {xsd : Xsd} {defs : List SLayout} {reg : Registry Term} (h : CompactSet c xsd defs reg)
    {ref : Term} {a : Layout Term} (ha : reg ref = some a) : a.Tree reg xsd ∧ (∀ p, a = .product p → SortedKeys p.fields) ∧ a.PlainSum reg := by
  obtain ⟨b, debug, fuel, ls, hb, hls, rfl⟩ := h.built
  obtain ⟨x, hx, rfl⟩ := Option.map_eq_some_iff.1 ha
  exact compact_layout h.terms h.order h.boolean hb hls h.compact h.sorted (fun r x hx => by simp [Builder.registry, hx]) hx

/-- **C70** (layouts). Compact definitions are compiled to layouts of trees, provided that the layouts they refer to are defined. -/
theorem C70_tree_layouts (c : BuildCtx Term) (xsd : Xsd) (defs : List SLayout) (reg : Registry Term) (h : CompactSet c xsd defs reg)
    (ref : Term) (href : ∀ ref', Reaches reg ref ref' → (reg ref').isSome = true) :
    TreeLayouts reg xsd ref ∧ reg.Sorted ∧ reg.AcyclicSums := by
  refine ⟨fun ref' hr => ?_, fun ref' l hl => (h.layout hl).2.1 l rfl, plain_acyclic fun r a ha => (h.layout ha).2.2⟩
  obtain ⟨l, hl⟩ := Option.isSome_iff_exists.1 (href ref' hr)
  exact ⟨l, hl, (h.layout hl).1⟩

theorem default_blank_names (order) : BlankNames (.default order) where
  generator i := ⟨_, rfl⟩
  input := ⟨_, rfl⟩
  injective i j h := by
    simp only [DeOptions.default, Term.blank.injEq] at h
    exact Nat.repr_injective h
  input_ne i := default_input_ne order i 0

/-- **C70.** A tree that conforms to compact layout definitions, compiled, can be turned into a dataset with the default names, and
the dataset can be turned back to that tree, up to the order of unordered lists. The layouts that the definitions refer to must be
defined; `Recoverable` excludes empty ordered lists, and identifiers of objects must not be repeated in the tree. -/
theorem C70_compact_round_trip (c : BuildCtx Term) (xsd : Xsd) (hx : XsdLaws xsd) (defs : List SLayout) (reg : Registry Term)
    (h : CompactSet c xsd defs reg) (ref : Term) (href : ∀ ref', Reaches reg ref ref' → (reg ref').isSome = true)
    (isIri : String → Bool) (le : TypedValue Term → TypedValue Term → Bool) (order : List (Quad IRes) → List (Quad IRes))
    (hord : ∀ l, (order l).Perm l) (v : Value) (hv : v.Sorted) (hconf : Conforms reg isIri ref v) (hp : v.Printable xsd)
    (hne : Recoverable reg ref v) (hid : ∀ n, (nodeIds reg n ref v).Nodup) :
    ∃ N, ∀ n, N ≤ n → ∃ dataset subject w M, dehydrate ⟨reg, isIri, xsd⟩ n v ref (.default order) = .ok (dataset, [subject]) ∧
      (∀ m, M ≤ m → Hydrate.hydrate (HyCtx.ofTerms reg xsd le dataset) m none ref [subject] = .ok w) ∧
      SameTree reg ref v w.untype := by
  obtain ⟨htree, hsort, hac⟩ := C70_tree_layouts c xsd defs reg h ref href
  exact C17_conforming_round_trip_partial ⟨reg, isIri, xsd⟩ le (.default order) hx hsort (default_blank_names order) hord ref htree hac v
    hv hconf hp hne hid

/-! ## The hypotheses can be met -/

namespace CoExample

/-- Some order on quads. -/
noncomputable def leQ : QuadPat Term → QuadPat Term → Bool := (exists_totalOrder (QuadPat Term)).choose

noncomputable def ctx : BuildCtx Term := { SyExample.ctx with leQ := leQ }

def xsd : Xsd := { Example.xsd with boolean := xsdBoolean }

theorem xsd_laws : XsdLaws xsd := ⟨Example.xsd_laws.bool, Example.xsd_laws.decimal⟩

/-- The friends of a person. -/
def friends : SLayout :=
  .unordered {} (.mk (.one "value") (.layout (.ref "https://example.org/Person")) [] (some (.iri "ex:knows")))

/-- A person, with an identifier, a name and a set of friends. -/
def person : SLayout :=
  .product { id := some "https://example.org/Person", prefixes := [("ex", "https://example.org/")] }
    [(.text "friends", .mk (.many []) (.format (.layout friends) (.one (.var "self")) none) [] none true),
      (.text "id", .mk (.many []) (.format (.layout (.id {} none none)) (.one (.var "self")) none) [] none true),
      (.text "name", .mk (.one "value") (.layout (.layout (.textString {} none none none))) [] (some (.iri "ex:name")) true)]

noncomputable def built : Builder Term := (person.buildWithContext ctx ⟨[], 0⟩).2

theorem person_ok : person.buildWithContext ctx ⟨[], 0⟩ = (.ok (.iri "https://example.org/Person"), built) := by
  have h : (person.buildWithContext ctx ⟨[], 0⟩).1 = .ok (.iri "https://example.org/Person") := by decide +kernel
  exact Prod.ext h rfl

def ex (s : String) : Term := .iri ("https://example.org/" ++ s)

/-- The compiled layouts. -/
def layouts : List (Term × Layout Term × List (Term × Term)) :=
  [(.blank "", .unordered {
      input := 1, intro := 0, dataset := [], item := ⟨1, ⟨ex "Person", [.var 1], none⟩, [⟨.var 0, .res (ex "knows"), .var 1, none⟩]⟩ }, []),
    (.blank "x", .id { input := 1, intro := 0, dataset := [], pattern := none, resource := .var 0 }, []),
    (.blank "xx", .textString {
      input := 1, intro := 0, dataset := [], resource := .var 0, datatype := .iri "http://www.w3.org/2001/XMLSchema#string",
      pattern := none }, []),
    (ex "Person", .product {
      input := 1, intro := 0, dataset := [],
      fields := [
        (.text "friends", ⟨0, ⟨.blank "", [.var 0], none⟩, [], true⟩),
        (.text "id", ⟨0, ⟨.blank "x", [.var 0], none⟩, [], true⟩),
        (.text "name", ⟨1, ⟨.blank "xx", [.var 1], none⟩, [⟨.var 0, .res (ex "name"), .var 1, none⟩], true⟩)] }, [])]

theorem layouts_ok : buildAll false 0 built.layouts = .ok layouts := by decide +kernel

def reg : Registry Term := Builder.registry layouts

theorem person_opens {env : LexEnv} (h : Opens SyExample.lib LexEnv.empty
    { id := some "https://example.org/Person", prefixes := [("ex", "https://example.org/")] } env) :
    env.prefixes "ex" = some "https://example.org/" := by
  obtain ⟨i, hi, he⟩ := h.prefixed [] _ _ [] rfl (by simp)
  cases hi with
  | absolute => exact he
  | prefixed p _ h => cases h
  | relative b _ h => cases h

theorem expands_ex {env : LexEnv} (h : env.prefixes "ex" = some "https://example.org/") {s i : String}
    (hs : iriScheme s = "ex") (hc : s.toList.contains ':' = true) (he : Expands SyExample.lib env s i) :
    i = "https://example.org/" ++ iriSuffix s := by
  cases he with
  | absolute _ h' => rw [hs, h] at h'; cases h'
  | prefixed p _ h' => rw [hs, h] at h'; cases h'; rfl
  | relative b h' => simp only [SyExample.lib, hc] at h'; cases h'

theorem sub_cases {env : LexEnv} {l : SLayout} (h : SubDef SyExample.lib LexEnv.empty person env l) :
    (l = person ∧ env = LexEnv.empty) ∨ l = friends ∨ l = .id {} none none ∨ l = .textString {} none none none := by
  induction h with
  | refl => exact .inl ⟨rfl, rfl⟩
  | nested _ h1 h2 h3 ih =>
    right
    rcases ih with ⟨rfl, rfl⟩ | rfl | rfl | rfl <;>
      simp [SLayout.refs, person, friends, SField.ref, SItem.ref, SFormat.ref] at h3
    exact h3

theorem friends_set : friends.IsSet "ex:knows" := ⟨_, _, "self", rfl, ⟨rfl, rfl, rfl⟩, "value", rfl, ⟨rfl, rfl⟩, rfl, rfl⟩

theorem person_compact : person.Compact SyExample.lib xsd LexEnv.empty := by
  refine ⟨"self", ⟨rfl, rfl, by simp⟩, ?_, ?_, fun env ho => ⟨?_, fun a ha i hi q hq => by cases hq⟩⟩
  · intro f hf
    simp only [List.mem_cons, List.not_mem_nil, or_false] at hf
    rcases hf with rfl | rfl | rfl
    · exact .inr (.inr ⟨friends, "ex:knows", ⟨rfl, ⟨rfl, rfl⟩, rfl, rfl, rfl⟩, rfl, friends_set⟩)
    · exact .inr (.inl ⟨⟨rfl, ⟨rfl, rfl⟩, rfl, rfl, rfl⟩, _, rfl, "self", ⟨rfl, rfl, rfl⟩, by intro p h; cases h⟩)
    · exact .inl ⟨"ex:name", "value", rfl, ⟨rfl, rfl⟩, rfl, rfl⟩
  · have notId : ¬ SField.GivesId "self" (.mk (.many []) (.format (.layout friends) (.one (.var "self")) none) [] none true) := by
      rintro ⟨-, l, hl, hi⟩
      cases hl
      exact hi
    have notId' : ¬ SField.GivesId "self"
        (.mk (.one "value") (.layout (.layout (.textString {} none none none))) [] (some (.iri "ex:name")) true) := by
      rintro ⟨-, l, hl, hi⟩
      cases hl
      exact hi
    simp only [List.pairwise_cons, List.mem_cons, List.not_mem_nil, or_false, forall_eq_or_imp, forall_eq]
    exact ⟨⟨fun h => absurd h notId, fun h => absurd h notId⟩, fun _ => notId', by simp, .nil⟩
  · have he := person_opens ho
    have h1 : ∀ i, SField.Property SyExample.lib env "self"
        (.mk (.many []) (.format (.layout friends) (.one (.var "self")) none) [] none true) i → i = "https://example.org/knows" := by
      rintro i (⟨p, ⟨y, -, -, -, h⟩, -⟩ | ⟨l, p, h, env', ⟨-, hl, hs⟩, hh, ho', hx⟩)
      · cases h
      · cases hl
        obtain ⟨h', item, x, e, -, hp⟩ := hs
        cases e
        cases hh
        obtain ⟨y, -, -, -, e⟩ := hp
        cases e
        refine expands_ex ?_ (by decide +kernel) (by decide +kernel) hx
        rw [ho'.inherited "ex" (by simp)]
        exact he
    have h2 : ∀ i, ¬ SField.Property SyExample.lib env "self"
        (.mk (.many []) (.format (.layout (.id {} none none)) (.one (.var "self")) none) [] none true) i := by
      rintro i (⟨p, ⟨y, -, -, -, h⟩, -⟩ | ⟨l, p, h, env', ⟨-, hl, hs⟩, hh, ho', hx⟩)
      · cases h
      · cases hl
        obtain ⟨h', item, x, e, -, hp⟩ := hs
        cases e
    have h3 : ∀ i, SField.Property SyExample.lib env "self"
        (.mk (.one "value") (.layout (.layout (.textString {} none none none))) [] (some (.iri "ex:name")) true) i →
        i = "https://example.org/name" := by
      rintro i (⟨p, ⟨y, -, -, -, e⟩, hx⟩ | ⟨l, p, h, env', ⟨-, hl, hs⟩, hh, ho', hx⟩)
      · cases e
        exact expands_ex he (by decide +kernel) (by decide +kernel) hx
      · cases hl
        obtain ⟨h', item, x, e, -, hp⟩ := hs
        cases e
    simp only [List.pairwise_cons, List.mem_cons, List.not_mem_nil, or_false, forall_eq_or_imp, forall_eq]
    refine ⟨⟨fun i _ => h2 i, fun i h h' => ?_⟩, fun i h => absurd h (h2 i), by simp, .nil⟩
    have := (h1 i h).symm.trans (h3 i h')
    revert this
    decide +kernel

theorem compact : CompactSet ctx xsd [person] reg where
  terms := ⟨fun _ => rfl, fun _ => rfl⟩
  order := (exists_totalOrder (QuadPat Term)).choose_spec
  boolean := rfl
  compact := by
    intro l hl l' env hs
    obtain rfl := List.mem_singleton.1 hl
    rcases sub_cases hs with ⟨rfl, rfl⟩ | rfl | rfl | rfl
    · exact person_compact
    · exact ⟨_, friends_set⟩
    · exact ⟨"self", ⟨rfl, rfl, rfl⟩, by intro p h; cases h⟩
    · exact ⟨"self", ⟨rfl, rfl, rfl⟩, by intro p h; cases h⟩
  sorted := by
    intro l hl l' env hs
    obtain rfl := List.mem_singleton.1 hl
    rcases sub_cases hs with ⟨rfl, rfl⟩ | rfl | rfl | rfl
    · show SortedKeys _
      unfold SortedKeys
      decide +kernel
    all_goals trivial
  built := ⟨built, false, 0, layouts, .define (b := ⟨[], 0⟩) 0 person _ (.empty 0) person_ok, layouts_ok, rfl⟩

theorem defined (ref : Term) (h : Reaches reg (ex "Person") ref) : (reg ref).isSome = true := by
  have : ref ∈ [ex "Person", .blank "", .blank "x", .blank "xx"] := by
    induction h with
    | refl => simp
    | step _ h1 h2 ih =>
      simp only [List.mem_cons, List.not_mem_nil, or_false] at ih
      rcases ih with rfl | rfl | rfl | rfl
      · cases h1
        simp only [Layout.formats, List.map_cons, List.map_nil, List.mem_cons, List.not_mem_nil, or_false] at h2
        rcases h2 with rfl | rfl | rfl <;> simp
      · cases h1
        simp only [Layout.formats, List.map_cons, List.map_nil, List.mem_cons, List.not_mem_nil, or_false] at h2
        subst h2
        simp
      · cases h1
        cases h2
      · cases h1
        cases h2
  simp only [List.mem_cons, List.not_mem_nil, or_false] at this
  rcases this with rfl | rfl | rfl | rfl <;> decide +kernel

/-- Bob, without friends. -/
def bob : Value := .map [(.text "friends", .list []), (.text "id", .text "https://example.org/bob"), (.text "name", .text "Bob")]

/-- Alice, whose friend is Bob. -/
def alice : Value :=
  .map [(.text "friends", .list [bob]), (.text "id", .text "https://example.org/alice"), (.text "name", .text "Alice")]

def isIri (s : String) : Bool := s.toList.contains ':'

def deCtx : DeCtx := ⟨reg, isIri, xsd⟩

theorem alice_ok : (dehydrate deCtx 8 alice (ex "Person") (.default id)).isOk = true := by decide +kernel

theorem alice_conforms : Conforms reg isIri (ex "Person") alice := by
  have h := alice_ok
  match hrun : dehydrate deCtx 8 alice (ex "Person") (.default id), h with
  | .ok (d, vs), _ =>
    exact C10_dehydrate_conforms deCtx
      (Witness.distinctKeys_of_sorted (C70_tree_layouts ctx xsd [person] reg compact (ex "Person") defined).2.1) 8 _ _ _ _ hrun

theorem bob_sorted : bob.Sorted := by
  refine .map _ (by unfold SortedKeys; decide +kernel) ?_
  simp only [List.mem_cons, List.not_mem_nil, or_false, forall_eq_or_imp, forall_eq]
  exact ⟨.list _ (by simp), .literal _, .literal _⟩

theorem alice_sorted : alice.Sorted := by
  refine .map _ (by unfold SortedKeys; decide +kernel) ?_
  simp only [List.mem_cons, List.not_mem_nil, or_false, forall_eq_or_imp, forall_eq]
  exact ⟨.list _ (by simpa using bob_sorted), .literal _, .literal _⟩

theorem alice_printable : alice.Printable xsd := by
  have bob : ∀ q, ¬ bob.HasNumber q := by
    intro q h
    cases h with
    | map hm h =>
      simp only [List.mem_cons, Prod.mk.injEq, List.not_mem_nil, or_false] at hm
      rcases hm with ⟨-, rfl⟩ | ⟨-, rfl⟩ | ⟨-, rfl⟩ <;> cases h
      rename_i hm _
      cases hm
  intro q h
  exfalso
  cases h with
  | map hm h =>
    simp only [List.mem_cons, Prod.mk.injEq, List.not_mem_nil, or_false] at hm
    rcases hm with ⟨-, rfl⟩ | ⟨-, rfl⟩ | ⟨-, rfl⟩
    · cases h with
      | list hm h =>
        obtain rfl := List.mem_singleton.1 hm
        exact bob q h
    · cases h
    · cases h

theorem recoverable (friends i n : Value) (h : Recoverable reg (.blank "") friends) :
    Recoverable reg (ex "Person") (.map [(.text "friends", friends), (.text "id", i), (.text "name", n)]) := by
  refine .product _ rfl ?_
  intro k v f hv hf
  simp only [List.mem_cons, Prod.mk.injEq, List.not_mem_nil, or_false] at hv hf
  rcases hf with ⟨rfl, rfl⟩ | ⟨-, rfl⟩ | ⟨-, rfl⟩
  · rcases hv with ⟨-, rfl⟩ | ⟨e, -⟩ | ⟨e, -⟩
    · exact h
    · exact absurd e (by decide)
    · exact absurd e (by decide)
  · exact .leaf _ (by intro l hl; cases hl; rfl)
  · exact .leaf _ (by intro l hl; cases hl; rfl)

theorem alice_recoverable : Recoverable reg (ex "Person") alice := by
  refine recoverable _ _ _ (.unordered _ rfl ?_)
  intro v hv
  obtain rfl := List.mem_singleton.1 hv
  exact recoverable _ _ _ (.unordered _ rfl (by simp))

theorem alice_ids (n : Nat) : (nodeIds reg n (ex "Person") alice).Nodup := by
  rcases n with _ | _ | _ | _ | n
  · decide +kernel
  · decide +kernel
  · decide +kernel
  · decide +kernel
  · have : nodeIds reg (n + 4) (ex "Person") alice = ["https://example.org/alice", "https://example.org/bob"] := rfl
    rw [this]
    decide +kernel

end CoExample

example := C70_compact_round_trip CoExample.ctx CoExample.xsd CoExample.xsd_laws [CoExample.person] CoExample.reg CoExample.compact
  (CoExample.ex "Person") CoExample.defined CoExample.isIri (fun _ _ => true) id (fun _ => .refl _) CoExample.alice
  CoExample.alice_sorted CoExample.alice_conforms CoExample.alice_printable CoExample.alice_recoverable CoExample.alice_ids

namespace ScExample

open CoExample (ctx xsd xsd_laws ex expands_ex isIri)

def flag : SLayout := .boolean {} none none

def name : SLayout := .textString {} none none none

/-- A point, with its type and a label. -/
def point : SLayout :=
  .product { dataset := [⟨.var "self", .iri "ex:type", .iri "ex:Point", none⟩] }
    [(.text "label", .mk (.one "value") (.layout (.layout name)) [] (some (.iri "ex:label")) true)]

/-- A boolean, a text or a point. -/
def thing : SLayout :=
  .sum { id := some "https://example.org/Thing", prefixes := [("ex", "https://example.org/")] }
    [("flag", .mk (.many []) (.layout (.layout flag)) []), ("name", .mk (.many []) (.layout (.layout name)) []),
      ("point", .mk (.many []) (.layout (.layout point)) [])]

noncomputable def built : Builder Term := (thing.buildWithContext ctx ⟨[], 0⟩).2

theorem thing_ok : thing.buildWithContext ctx ⟨[], 0⟩ = (.ok (.iri "https://example.org/Thing"), built) := by
  have h : (thing.buildWithContext ctx ⟨[], 0⟩).1 = .ok (.iri "https://example.org/Thing") := by decide +kernel
  exact Prod.ext h rfl

/-- The compiled layouts. -/
def layouts : List (Term × Layout Term × List (Term × Term)) :=
  [(.blank "", .boolean {
      input := 1, intro := 0, dataset := [], resource := .var 0, datatype := .iri xsdBoolean }, []),
    (.blank "x", .textString {
      input := 1, intro := 0, dataset := [], resource := .var 0, datatype := .iri "http://www.w3.org/2001/XMLSchema#string",
      pattern := none }, []),
    (.blank "xxx", .textString {
      input := 1, intro := 0, dataset := [], resource := .var 0, datatype := .iri "http://www.w3.org/2001/XMLSchema#string",
      pattern := none }, []),
    (.blank "xx", .product {
      input := 1, intro := 0, dataset := [⟨.var 0, .res (ex "type"), .res (ex "Point"), none⟩],
      fields := [(.text "label", ⟨1, ⟨.blank "xxx", [.var 1], none⟩, [⟨.var 0, .res (ex "label"), .var 1, none⟩], true⟩)] }, []),
    (ex "Thing", .sum {
      input := 1, intro := 0, dataset := [],
      variants := [⟨"flag", 0, ⟨.blank "", [.var 0], none⟩, []⟩, ⟨"name", 0, ⟨.blank "x", [.var 0], none⟩, []⟩,
        ⟨"point", 0, ⟨.blank "xx", [.var 0], none⟩, []⟩] }, [])]

theorem layouts_ok : buildAll false 0 built.layouts = .ok layouts := by decide +kernel

def reg : Registry Term := Builder.registry layouts

/-- The prefix is in scope. -/
def HasEx (env : LexEnv) : Prop := env.prefixes "ex" = some "https://example.org/"

theorem thing_opens {env : LexEnv} (h : Opens SyExample.lib LexEnv.empty
    { id := some "https://example.org/Thing", prefixes := [("ex", "https://example.org/")] } env) : HasEx env := by
  obtain ⟨i, hi, he⟩ := h.prefixed [] _ _ [] rfl (by simp)
  cases hi with
  | absolute => exact he
  | prefixed p _ h => cases h
  | relative b _ h => cases h

theorem point_opens {env env' : LexEnv} (he : HasEx env) (h : Opens SyExample.lib env
    { dataset := [⟨.var "self", .iri "ex:type", .iri "ex:Point", none⟩] } env') : HasEx env' := by
  unfold HasEx
  rw [h.inherited "ex" (by simp)]
  exact he

theorem sub_cases {env : LexEnv} {l : SLayout} (h : SubDef SyExample.lib LexEnv.empty thing env l) :
    (l = thing ∧ env = LexEnv.empty) ∨ l = flag ∨ l = name ∨ (l = point ∧ HasEx env) := by
  induction h with
  | refl => exact .inl ⟨rfl, rfl⟩
  | nested _ h1 h2 h3 ih =>
    right
    rcases ih with ⟨rfl, rfl⟩ | rfl | rfl | ⟨rfl, he⟩
    · cases h1
      have := thing_opens h2
      simp [SLayout.refs, thing, SVariant.ref, SFormat.ref] at h3
      rcases h3 with rfl | rfl | rfl
      · exact .inl rfl
      · exact .inr (.inl rfl)
      · exact .inr (.inr ⟨rfl, this⟩)
    · simp [SLayout.refs, flag] at h3
    · simp [SLayout.refs, name] at h3
    · simp [SLayout.refs, point, SField.ref, SFormat.ref] at h3
      exact .inr (.inl h3)

theorem label_property {env : LexEnv} (he : HasEx env) {i : String} (h : SField.Property SyExample.lib env "self"
    (.mk (.one "value") (.layout (.layout name)) [] (some (.iri "ex:label")) true) i) : i = "https://example.org/label" := by
  rcases h with ⟨p, ⟨y, -, -, -, e⟩, hx⟩ | ⟨l, p, h, env', ⟨-, hl, hs⟩, hh, ho', hx⟩
  · cases e
    exact expands_ex he (by decide +kernel) (by decide +kernel) hx
  · cases hl
    obtain ⟨h', item, x, e, -, hp⟩ := hs
    cases e

theorem point_compact {env : LexEnv} (he : HasEx env) : point.Compact SyExample.lib xsd env := by
  refine ⟨"self", ⟨rfl, rfl, ?_⟩, ?_, by simp, fun env' ho => ⟨by simp, ?_⟩⟩
  · intro q hq
    obtain rfl := List.mem_singleton.1 hq
    exact ⟨rfl, trivial, trivial, rfl⟩
  · intro f hf
    obtain rfl := List.mem_singleton.1 hf
    exact .inl ⟨"ex:label", "value", rfl, ⟨rfl, rfl⟩, rfl, rfl⟩
  · intro f hf i hi q hq p hp hx
    obtain rfl := List.mem_singleton.1 hf
    obtain rfl := List.mem_singleton.1 hq
    have he' := point_opens he ho
    cases hp
    have := (label_property he' hi).symm.trans (expands_ex he' (by decide +kernel) (by decide +kernel) hx)
    revert this
    decide +kernel

/-- A header can be opened. -/
theorem point_open {env : LexEnv} : Opens SyExample.lib env { dataset := [⟨.var "self", .iri "ex:type", .iri "ex:Point", none⟩] }
    (env.declare ["self"]) where
  base := rfl
  prefixed := by simp
  inherited _ _ := rfl
  names := by simp [LexEnv.declare, OneOrMany.asSlice]

theorem point_expands {env : LexEnv} (he : HasEx env) {s : String} (hs : iriScheme s = "ex") (hc : SyExample.lib.isIri s = true)
    (hc' : SyExample.lib.isIri ("https://example.org/" ++ iriSuffix s) = true) :
    Expands SyExample.lib env s ("https://example.org/" ++ iriSuffix s) :=
  .prefixed _ hc (by rw [hs]; exact he) hc'

theorem not_boolean {env : LexEnv} {i : String} (h : i ≠ xsdBoolean) : ¬ flag.HasType SyExample.lib env i := by
  intro h'
  unfold flag at h'
  cases h'
  exact h rfl

theorem not_string {env : LexEnv} {i : String} (h : i ≠ "http://www.w3.org/2001/XMLSchema#string") :
    ¬ name.HasType SyExample.lib env i := by
  intro h'
  unfold name at h'
  cases h'
  exact h rfl

theorem thing_compact : thing.Compact SyExample.lib xsd LexEnv.empty := by
  refine ⟨"self", ⟨rfl, rfl, rfl⟩, ?_, fun env ho => ?_⟩
  · simp only [List.mem_cons, List.not_mem_nil, or_false, forall_eq_or_imp, forall_eq]
    exact ⟨⟨⟨rfl, rfl, rfl, rfl⟩, _, rfl, trivial⟩, ⟨⟨rfl, rfl, rfl, rfl⟩, _, rfl, trivial⟩, ⟨⟨rfl, rfl, rfl, rfl⟩, _, rfl, trivial⟩⟩
  · have he : HasEx env.nested := thing_opens (env := env) ho
    have states : point.States SyExample.lib env.nested ("https://example.org/" ++ iriSuffix "ex:type")
        ("https://example.org/" ++ iriSuffix "ex:Point") :=
      ⟨_, _, rfl, point_open, _, .head _, "ex:type", "ex:Point", rfl,
        point_expands (env := env.nested.declare ["self"]) he (by decide +kernel) (by decide +kernel) (by decide +kernel), rfl,
        point_expands (env := env.nested.declare ["self"]) he (by decide +kernel) (by decide +kernel) (by decide +kernel)⟩
    simp only [List.pairwise_cons, List.mem_cons, List.not_mem_nil, or_false, forall_eq_or_imp, forall_eq]
    refine ⟨⟨?_, ?_⟩, ?_, by simp, .nil⟩
    · intro l l' h1 h2
      cases h1
      cases h2
      exact ⟨.type _ .string (not_boolean (by decide)), .type _ .boolean (not_string (by decide))⟩
    · intro l l' h1 h2
      cases h1
      cases h2
      refine ⟨.triple _ _ states ?_ ?_, .type _ .boolean (by intro h; cases h)⟩
      · rintro ⟨h, env', e, -, q, hq, -⟩
        cases e
        cases hq
      · rintro ⟨h, fields, x, env', e, -⟩
        cases e
    · intro l l' h1 h2
      cases h1
      cases h2
      refine ⟨.triple _ _ states ?_ ?_, .type _ .string (by intro h; cases h)⟩
      · rintro ⟨h, env', e, -, q, hq, -⟩
        cases e
        cases hq
      · rintro ⟨h, fields, x, env', e, -⟩
        cases e

theorem compact : CompactSet ctx xsd [thing] reg where
  terms := ⟨fun _ => rfl, fun _ => rfl⟩
  order := (exists_totalOrder (QuadPat Term)).choose_spec
  boolean := rfl
  compact := by
    intro l hl l' env hs
    obtain rfl := List.mem_singleton.1 hl
    rcases sub_cases hs with ⟨rfl, rfl⟩ | rfl | rfl | ⟨rfl, he⟩
    · exact thing_compact
    · exact ⟨"self", ⟨rfl, rfl, rfl⟩, (by intro p h; cases h), rfl⟩
    · exact ⟨"self", ⟨rfl, rfl, rfl⟩, by intro p h; cases h⟩
    · exact point_compact he
  sorted := by
    intro l hl l' env hs
    obtain rfl := List.mem_singleton.1 hl
    rcases sub_cases hs with ⟨rfl, rfl⟩ | rfl | rfl | ⟨rfl, he⟩
    · trivial
    · trivial
    · trivial
    · show SortedKeys _
      unfold SortedKeys
      decide +kernel
  built := ⟨built, false, 0, layouts, .define (b := ⟨[], 0⟩) 0 thing _ (.empty 0) thing_ok, layouts_ok, rfl⟩

theorem defined (ref : Term) (h : Reaches reg (ex "Thing") ref) : (reg ref).isSome = true := by
  have : ref ∈ [ex "Thing", .blank "", .blank "x", .blank "xx", .blank "xxx"] := by
    induction h with
    | refl => simp
    | step _ h1 h2 ih =>
      simp only [List.mem_cons, List.not_mem_nil, or_false] at ih
      rcases ih with rfl | rfl | rfl | rfl | rfl <;> cases h1 <;>
        simp only [Layout.formats, List.map_cons, List.map_nil, List.mem_cons, List.not_mem_nil, or_false] at h2
      · rcases h2 with rfl | rfl | rfl <;> simp
      · subst h2
        simp
  simp only [List.mem_cons, List.not_mem_nil, or_false] at this
  rcases this with rfl | rfl | rfl | rfl | rfl <;> decide +kernel

/-- A point. -/
def origin : Value := .map [(.text "label", .text "O")]

def deCtx : DeCtx := ⟨reg, isIri, xsd⟩

theorem origin_ok : (dehydrate deCtx 8 origin (ex "Thing") (.default id)).isOk = true := by decide +kernel

theorem origin_conforms : Conforms reg isIri (ex "Thing") origin := by
  have h := origin_ok
  match hrun : dehydrate deCtx 8 origin (ex "Thing") (.default id), h with
  | .ok (d, vs), _ =>
    exact C10_dehydrate_conforms deCtx
      (Witness.distinctKeys_of_sorted (C70_tree_layouts ctx xsd [thing] reg compact (ex "Thing") defined).2.1) 8 _ _ _ _ hrun

theorem origin_sorted : origin.Sorted := by
  refine .map _ (by unfold SortedKeys; decide +kernel) ?_
  simp only [List.mem_cons, List.not_mem_nil, or_false, forall_eq_or_imp, forall_eq]
  exact .literal _

theorem origin_printable : origin.Printable xsd := by
  intro q h
  exfalso
  cases h with
  | map hm h =>
    obtain ⟨-, rfl⟩ := Prod.mk.inj (List.mem_singleton.1 hm)
    cases h

theorem origin_recoverable : Recoverable reg (ex "Thing") origin := by
  refine .sum _ [_, _] _ [] rfl rfl ?_ (.product _ rfl ?_)
  · simp only [List.append_nil, List.mem_cons, List.not_mem_nil, or_false, forall_eq_or_imp, forall_eq]
    exact ⟨⟨_, rfl, rfl⟩, ⟨_, rfl, rfl⟩⟩
  · intro k v f hv hf
    obtain ⟨rfl, rfl⟩ := Prod.mk.inj (List.mem_singleton.1 hf)
    exact .leaf _ (by intro l hl; cases hl; rfl)

theorem origin_ids (n : Nat) : (nodeIds reg n (ex "Thing") origin).Nodup := by
  rcases n with _ | _ | _ | _ | n
  · decide +kernel
  · decide +kernel
  · decide +kernel
  · decide +kernel
  · have : nodeIds reg (n + 4) (ex "Thing") origin = [] := rfl
    rw [this]
    exact .nil

end ScExample

/-- With a sum. -/
example := C70_compact_round_trip CoExample.ctx CoExample.xsd CoExample.xsd_laws [ScExample.thing] ScExample.reg ScExample.compact
  (CoExample.ex "Thing") ScExample.defined CoExample.isIri (fun _ _ => true) id (fun _ => .refl _) ScExample.origin
  ScExample.origin_sorted ScExample.origin_conforms ScExample.origin_printable ScExample.origin_recoverable ScExample.origin_ids

end Verif.Props
