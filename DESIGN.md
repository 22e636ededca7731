# Formal model of TreeLDR in Lean 4 — design

The source under study is the Rust workspace in `/repo` (spruceid/treeldr, pinned commit).
It is read as text only; nothing in `/repo` is executed or changed.

## 1. Trusted base

* Lean 4.33.0's kernel, and the three standard axioms `propext`, `Classical.choice`, `Quot.sound`
  (`#print axioms` on every property theorem lists no other). No axiom is declared, there is no
  `sorry`, `admit`, `native_decide` or `bv_decide`.
* The reading of the Rust source: each Lean definition cites the file and lines it models. The tie between
  model and code is this citation, not an extraction. As a check of this reading, the tests and examples found in the repository
  are run on the model by the kernel (`Verif/RepoTests*.lean`): all `layouts/tests/distill/` vectors, the tests of decimals, regular
  expressions and CBOR tags, `examples/combine.rs`, the commands of the README, the examples of the documentation and the declarations
  of the tests of the derive macros give the expected results. These are tests of the model, not properties.
* The behaviour assumed of dependencies (none of which are present in the sandbox):
  - `BTreeMap`/`BTreeSet`/`HashMap`/`HashSet` behave as finite maps/sets. They are modelled as lists without
    repeated keys; iteration order is either universally quantified or proved irrelevant.
  - `rdf_types::BTreeDataset` is a set of quads. `quad_pattern_matching` enumerates, without repetition, the
    quads that agree with the non-variable components of the pattern; a pattern without graph selects the
    default graph; a pattern whose graph is a variable selects named graphs only (the code unwraps the graph).
  - `num_bigint`/`num_rational` compute exactly; `BigRational` is in lowest terms with positive denominator
    (Lean's `Rat`). `iter_u64_digits` of zero is empty (documented behaviour of `num_bigint`).
  - `iref` decides which strings are IRIs; this is a parameter of the model (`isIri : String → Bool`).
  - `xsd_types` lexical parsing/printing of booleans and decimals: parameters with the round-trip law stated
    as an explicit hypothesis where it is needed.
  - `btree_range_map::RangeMap::update` changes exactly the points of the given range; modelled concretely and
    its pointwise law is proved for the model.
* Machine integers: `u32`/`usize` are modelled by `Nat`. Overflow of variable counters (2³² variables) is out of
  the model.
* Panics (`unwrap`, `todo!`, index out of bounds) are an explicit outcome `panic`, never a default value.
* Non-termination / unbounded recursion is modelled by fuel with an explicit outcome `fuel`; theorems show that
  more fuel never changes an outcome other than `fuel`.

## 2. Modules

| Lean module | Models |
|---|---|
| `Verif/Basic.lean` | outcome type (`ok`/`err`/`panic`/`fuel`) |
| `Verif/Pattern.lean` | `pattern.rs`, `utils::with_default_graph` |
| `Verif/Matching.lean` | `matching.rs` (stack machine), runtime copy in `generators/rust/treeldr-rs` |
| `Verif/Value.lean` | `value/mod.rs` (trees, typed trees) |
| `Verif/Layout.lean` | `layout/**`, `format.rs`, `lib.rs` registry |
| `Verif/Hydrate.lean` | `distill/hy/**` |
| `Verif/Order.lean` | `derive(PartialOrd, Ord)` of `Value` and `TypedValue` |
| `Verif/Dehydrate.lean` | `distill/de/**`, runtime copy `ser/environment.rs` |
| `Verif/RoundTrip*.lean` | no further code: round trips (representation of a tree by a dataset, skipping of the other variants of a sum, totality) |
| `Verif/Ranges.lean`, `Verif/Collections.lean` | `btree_range_map` sets and maps, ordered sets, association lists, graph exploration |
| `Verif/Nfa*.lean`, `Verif/Det*.lean`, `Verif/Automaton*.lean` | `utils/automaton.rs` |
| `Verif/RegExp*.lean` | `abs/regexp.rs` |
| `Verif/Number.lean`, `Verif/Json.lean`, `Verif/Cbor.lean` | `value/**` conversions |
| `Verif/Syntax*.lean` | `abs/syntax/**` (scope, build) |
| `Verif/SyntaxParse*.lean`, `Verif/SyntaxDoc.lean` | `abs/syntax/**` (`TryFromJson`, object parsing), grammar of definitions |
| `Verif/SyntaxPrint*.lean`, `Verif/SyntaxReorder.lean` | `abs/syntax/**` (derived `Serialize`); documents up to the order of members |
| `Verif/Registry.lean`, `RegistryLocal.lean` | `lib.rs`: registries, `layout/mod.rs`: dependencies |
| `Verif/Cli.lean`, `CliLemmas.lean` | `src/main.rs`: loading of layout files, default layout, commands |
| `Verif/Prelude.lean` | `layouts/src/prelude.rs`, `layouts/prelude/*.json` |
| `Verif/Rust.lean`, `RustLemmas.lean`, `Props/Rust.lean` | Rust generator and front end of the derive macros (attribute printer and parser, layout built from a type definition) |
| `Verif/RustAll.lean`, `Props/RustAll.lean` | macros `tldr`, `tldr_include` (`treeldr-rs-macros/src/lib.rs`), tool `tldr-rs`, names of types (`utils.rs`) |
| `Verif/SyntaxSerde*.lean`, `Props/SyntaxSerde*.lean` | derived `serde::Deserialize` of layout definitions (`abs/syntax/**`, `value/de.rs`), as used by the macros |
| `Verif/Derive*.lean`, `Props/Derive.lean` | code generated by `#[derive(DeserializeLd, SerializeLd)]` (`generate/{de,ser}.rs`) and its runtime (`treeldr-rs`) |
| `Verif/Rename*.lean`, `Props/Rename.lean` | no further code: hydration of a renamed or enriched dataset |
| `Verif/DehydrateNames.lean`, `SyntaxConstants.lean`, `Props/Names.lean` | default options of `distill/de/mod.rs`; dehydration under other names |
| `Verif/CompactSpec.lean`, `CompactLemmas.lean`, `Props/Compact.lean` | compact layout definitions, from their compilation to the round trip |
| `Verif/CompactCli.lean`, `Props/CompactCli.lean` | the same, from JSON documents, with the command line tool |
| `Verif/RustPresets.lean`, `Props/RustPresets.lean` | types of the layouts of the prelude: generator, runtime (`treeldr-rs/src/datatypes.rs`) |
| `Verif/RustEmit.lean`, `RustEmitSpec`, `RustEmitLemmas`, `Props/RustEmit.lean` | back end of the derive macros (`treeldr-rs-macros/src/generate/{mod,de,ser}.rs`): what can fail or panic while code is emitted, and the types used |
| `Verif/RustDocSpec.lean`, `RustDocLemmas`, `Props/RustDoc.lean` | declarations of layouts, as Rust types and as JSON documents (no new code is modelled) |
| `Verif/CombineSpec.lean`, `Combine`, `CombineExample`, `Props/Combine.lean` | record layouts put together, documents put together (`layouts/examples/combine.rs`; no new code is modelled) |
| `Verif/KeptSpec.lean`, `KeptTerms`, `Kept`, `KeptExample`, `Props/Kept.lean` | what is read back compared with what was written (no new code is modelled) |
| `Verif/RustModules.lean`, `Props/RustModules.lean` | the attribute macro `tldr` and its `use` items (`generators/rust/treeldr-rs-macros/src/lib.rs`) |
| `Verif/PanicSpec.lean`, `PanicSites.lean`, `PanicSitesMain.lean`, `DePanicSites.lean` | where hydration and dehydration panic (C45, C47) |
| `Verif/RepoTestsDef.lean`, `RepoTests.lean`, `RepoTestsMore.lean` | tests and examples of the repository run on the model |
| `Verif/CliFormats.lean`, `CliFormatsLemmas`, `Props/CliFormats.lean` | `src/format/rdf.rs`, `src/format/tree.rs`, `src/rdf.rs`, commands of `src/main.rs` with all formats |
| `Verif/CliConform.lean`, `Props/CliConform.lean` | what the tool prints and accepts conforms to the layouts (no new code is modelled) |
| `Verif/ReproduceSpec.lean`, `ReproduceLemmas`, `ReproduceRun`, `Reproduce`, `ReproduceNames`, `ReproduceExample`, `Props/Reproduce.lean` | writing back a tree that was read (no new code is modelled) |
| `Verif/RereadSpec.lean`, `RereadView`, `RereadNames`, `RereadExample`, `HydrateComplete`, `Props/Reread.lean` | reading again what was written (no new code is modelled) |
| `Verif/NamedGraphSpec.lean`, `NamedGraph`, `NamedGraphLayouts`, `Props/NamedGraph.lean` | hydration in a graph; layouts that name one graph (no new code is modelled) |
| `Verif/StoredSpec.lean`, `Props/Stored.lean` | documents put together in one dataset; trees written as isomorphic datasets (no new code is modelled) |
| `Verif/SyntaxPos.lean`, `SyntaxPosSpec`, `SyntaxPosLemmas`, `Props/SyntaxPos.lean` | positions, hints and messages of the errors of layout definitions (`layouts/src/abs/syntax`), diagnostics (`src/main.rs`); the code map of the JSON library is a preorder list of volumes |
| `Verif/TagSpec.lean`, `Verif/Props/Tags.lean` | tagged CBOR: specification of the tags at any depth, and C49 for it (no new code is modelled) |
| `Verif/Props/ReadBackCli.lean` | reading back from the layout files on (no new code is modelled) |
| `Verif/ErrorSpec.lean`, `Verif/ErrorSites.lean`, `Verif/Props/ErrorCauses.lean` | what the errors of hydration say (no new code is modelled) |
| `Verif/DeErrorSpec.lean`, `Verif/DeErrorSites.lean`, `Verif/Props/DeErrorCauses.lean` | what the errors of dehydration say (no new code is modelled) |
| `Verif/IrrelevantSpec.lean`, `Irrelevant`, `IrrelevantDerived`, `Props/CombineAny.lean`, `Props/Irrelevant.lean` | quads that match no pattern of the layouts; documents put together, for any layouts (no new code is modelled) |
| `Verif/HydrateOrder.lean`, `Props/HydrateOrder.lean` | hydration and the order of the dataset (no new code is modelled) |
| `Verif/DeriveDatasetOrder.lean`, `Props/DeriveDatasetOrder.lean` | derived deserialization and the order of the dataset (no new code is modelled) |
| `Verif/DeriveRename.lean`, `Props/DeriveRename.lean` | derived deserialization and the names of resources (no new code is modelled) |
| `Verif/Display.lean`, `DisplayLemmas`, `Props/Display.lean` | `impl Display` of `Number`, `Literal` and `Value` (`value/mod.rs`) |
| `Verif/Messages.lean`, `Props/Messages.lean` | the messages of `hy::Error`, `hy::DataFragment` (`distill/hy/mod.rs`) and `de::Error` (`distill/de/mod.rs`) |
| `Verif/VariantOrderSpec.lean`, `VariantOrder`, `VariantOrderDe`, `VariantOrderDerived`, `VariantOrderApart`, `Props/VariantOrder.lean` | layouts with permuted and renamed variants; no further code |
| `Verif/RelabelSpec.lean`, `Relabel`, `RelabelDe`, `RelabelDerived`, `Props/Relabel.lean`, `Props/RelabelDerived.lean` | layouts under other identifiers; no further code |
| `Verif/RelaxSpec.lean`, `Relax`, `RelaxDe`, `Props/Relax.lean` | layouts with fewer required fields; no further code |
| `Verif/ExtendSpec.lean`, `Extend`, `ExtendDe`, `ExtendSer`, `Props/Extend.lean` | layouts with more optional fields; no further code |
| `Verif/MoreVariantsSpec.lean`, `MoreVariants`, `MoreVariantsDe`, `Props/MoreVariants.lean` | sums with more variants; no further code |
| `Verif/SingleSpec.lean`, `Single`, `Props/Single.lean` | sums with one variant; no further code |
| `Verif/RenameKeysSpec.lean`, `RenameKeys`, `Props/RenameKeys.lean` | other keys in records; no further code |
| `Verif/DsErrorSpec.lean`, `Verif/DsErrorSites.lean`, `Verif/Props/DsErrorCauses.lean` | what the errors of derived deserialization say (no new code is modelled) |
| `Verif/OneTermSpec.lean`, `Verif/OneTerm.lean`, `Verif/Props/OneTerm.lean` | layouts for which dehydration gives one term to each resource (no new code is modelled) |
| `Verif/Props/DeriveReadBack.lean` | reading back by derived types (no new code is modelled) |
| `Verif/Props/CliClosed.lean` | hydration and undeclared variables from the layout files on (no new code is modelled) |
| `Verif/ReadBackSpec.lean`, `Said`, `ReadBack`, `Follows`, `Props/ReadBack.lean`, `Props/ReadSets.lean` | when what was written can be read back (no new code is modelled) |
| `Verif/RustNames.lean` | names of Rust types from the path and fragment of IRIs (`treeldr-rs-macros/src/generate/mod.rs`) |
| `Verif/Props/*.lean` | the property theorems, one file per area, with their non-vacuity examples |

Specifications (declarative meaning, conformance, languages) are in files named `*Spec.lean` and do not mention
the model's helper functions.

## 3. Properties: what is modelled and how it is proved

* **C01** `Matching` is modelled as the stack machine of the code (`Matching.step`), with a termination measure.
  Refinement: the machine enumerates the recursive search; the recursive search is proved equal, as a duplicate
  free list, to the set of substitutions satisfying a declarative predicate (`IsMatch`).
* **C02** `into_unique` on the machine; iff-characterisations from C01.
* **C03** permutation invariance from the characterisation in C01.
* **C04** declarative semantics of hydration as an inductive relation (`HydSpec`), stated with "unique
  substitution such that…"; `hydrate` ok iff derivable.
* **C05** conformance predicate `Conforms` (inductive, independent of the algorithms); induction on fuel.
* **C06** predicate `Annotated`; induction on fuel.
* **C07** permutation invariance of hydrate, from C03 plus sorting being canonical for a total order. Without assuming that there are no
  panics (`Verif/Props/HydrateOrder.lean`): if variants are told apart by their patterns, each step that succeeds also succeeds with the
  other order; the causes of panics (C45) are conditions on the set of quads.
* **C08** sum branch: theorem for variants without own variables; negation witness for variants with `intro`
  (the code matches with the substitution that lacks them: index panic), and `todo!()` panics instead of errors.
* **C09** chain predicate; partial theorem + witness of divergence on a cyclic chain.
* **C10/C11** `dehydrate` ok → `Conforms`; converse for closed layouts and supported datatypes. The error `TermAmbiguity` is excluded
  (`C11_no_term_ambiguity`, `C11_dehydrate_accepts`) for layouts that visibly give one term to each resource (`Registry.OneTerm`,
  `Verif/OneTermSpec.lean`): invariant of the state (no resource has two terms), with the sets of resources each call may give terms to.
* **C12/C13** state invariants by induction on fuel, for all outcomes.
* **C14** naming pass modelled as a fold over lazily extended map; proved to be the image under one function.
* **C15** false of the code: witness; partial theorem (no failing variants / variants that fail before output).
* **C16** false of the code: witness; partial theorem for default graph.
* **C17/C18** round trips for layouts whose nodes are resources linked by properties. A frame argument shows that the
  final output represents the tree (`Rep`, by induction on fuel); hydrating a representation gives the tree back.
  Variants of a sum are told apart by a triple or by a literal type that only one of them writes (`Separate`);
  an identifier may be a variant if it states a triple.
  `C17_conforming_round_trip_partial` needs no assumption on the run: every conforming tree is accepted (C11, without
  ambiguity for these layouts) and comes back.
  Witnesses for the empty list, absent identifiers, shared identifiers and identifier variants.
* **C19** environment = flattened list.
* **C20** false of the code: witness.
* **C21–C26** syntax scope/build models; induction over definitions; witnesses where the code deviates.
* **C27** the parser keeps a flag per entry; its result is proved equivalent to an independent grammar (`SyntaxDoc.lean`), by
  induction on the depth of the document.
* **C54, C55** totality of the parsers: every outcome is a result or an error; invariant of the stack of `RegExp::parse`.
* **C56** printer and parser composed: the printed document is in the grammar of C27, by induction on the definition; witnesses. Regular
  expressions are canonical (C31: the parser, step by step on the printed text, rebuilds the expression).
* **C57** the grammar is invariant under reordering (`SyntaxReorder.lean`), by mutual induction on its derivations.
* **C28–C33, C40–C42** automata and regular expressions; language equalities by induction on strings; witnesses
  for the defects found (sequence entry state, postfix scope, dropped final states, …).
* **C34, C35, C39, C48–C50** numbers, JSON, CBOR, Serde. The division loop carries an invariant (remainders, digits); trees
  by mutual induction. Floating point conversion and the order of `serde_cbor` values are parameters.
* **C36, C37, C38** decision logic; the loops over the files are related to a specification of what a list of files defines.
* **C58** the same invariant: the layouts of the state are the union of those of the files; unnamed layouts are generated by a
  shared counter, hence never clash.
* **C59** by induction on the bound of the recursion: the registry is only consulted at references reachable from the first one.
* **C60** the prelude is compiled symbolically, for every vocabulary that accepts its IRIs.
* **C43** fuel monotonicity and a termination theorem.
* **C44** the layout read by the derive macros from a generated type is the layout it was generated from, up to references
  (`C44_partial`), exactly for the expressible layouts (`C44_violated` for all others). Rust syntax is modelled by tokens of `tldr`
  attributes, paths and data types; identifiers accepted by `syn` are a parameter.
* **C61** the scheme of the generated code is a function of the layout (`Derived.deserialize`). What it reads is a meaning of the
  layout (induction on the bound), and a meaning is read (`DsTotal`); with C04, which characterises `hydrate` by the same meanings, the
  two agree up to the order of unordered lists.
* **C62** derived serialization and dehydration are equal as functions of the state, by induction on the bound; success by induction
  on the value. With enumerations `dehydrate` writes the patterns of a variant after its contents and derived code before, so the two
  runs are related by a simulation (`DeriveSim.lean`: same terms, and one output has the pending quads in addition). **C63** transfers
  C17 along C61 and C62; `C63_read_back` (`Verif/Props/DeriveReadBack.lean`) transfers C90, and as a tree tells the value of its type when it
  tells the variants, the value itself is read back; with sets, up to their order and repetitions (`C63_read_back_sets`).
* **C64** one step of the attribute loop is shown to add its attribute to those known (`Adds`); the loops follow by
  induction, using that joining attributes is associative.
* **C65** the macros are folds of the compiler of definitions and of the generator (C44); the invariants are over the list of files.
  Uniqueness of names does not hold in general and is a hypothesis of the last part of `C65_references_partial`.
* **C66** the derived deserializer is modelled after what `serde` generates (untagged enumerations, flattened structures, buffered
  content). Each document of the grammar of C27 is shown to be deserialized to the definition it stands for, by induction on its depth.
  Documents accepted by the macros only are listed in section 4, not characterised.
* **C67**, **C68** one simulation between the runs of `matching.rs` over a dataset and over the same dataset renamed and enriched: the
  states of the second stack are those of the first one renamed, with candidates that cannot match inserted. Hydration follows by
  induction on the bound. That the conditions are needed is shown by `Witness.C68_unrooted` and `Witness.C67_merged`.
* **C69** two namings of the same dehydrated state (C14) differ by a renaming of blank nodes, because the terms of that state are
  constants of the layouts and assigned terms are not blank; then C67 applies. Compiled layouts have no blank constants
  (`Verif/SyntaxConstants.lean`), so that the default names are fresh.
* **C70** every entry of a builder is the meaning (C21, C24) of a definition or of one nested in it; the meaning of a compact
  definition, built, is a tree layout (datasets are duplicate-free, so the one expected quad is the dataset); hence C17 applies.
* **C71** definitions read from documents have sorted fields, trees read from documents are sorted, and the loaded registry has the
  layouts of the files and of the prelude (C36); hence C70's argument applies, and the resulting tree can be printed (C35).
* **C72** the tables of the generator, of the prelude and of the runtime are compared, for each of the twelve layouts; the ranges of the
  integer types are those of Rust and of XML Schema, given separately.
* **C73** the emission of code is modelled as far as it can fail or panic (constants that are not IRIs, references to unknown types, names
  that are not identifiers); an invariant of the parsed attributes (no literals in patterns, references are identifiers of types in order)
  is carried through compilation to emission. The token streams that are emitted are not modelled, only the type used for each content.
* **C74** a declaration is data (texts, left out or not); it is written as tokens and as JSON. The loop over the attributes is reduced to a
  sequence of settings, the document to lookups (C33's relations), and each setting is compared. `graph(None)` is not among the declarations,
  since documents cannot express it; regular expressions, constants and extra properties are not either, since attributes cannot.
* **C75** the names are decided one by one; strings outside the list are rejected by the command line parser, whose list is part of the model.
* **C76** loaded trees are well formed (sorted keys), so C35 (JSON) and C50 (CBOR) apply to what is written. Texts are given by what they
  stand for in each syntax; `serde_cbor` is given by the calls it makes.
* **C77** registries loaded by the tool have sorted fields and well-formed constants, whatever the files (an invariant of parsing, of the
  meaning of definitions and of the prelude); hence hydrated trees conform (C10), are annotated with the layouts of the registry, and are well
  formed, so that what is printed stands for them (C35, C49).
* **C78** printer (C56) and deserializer (C66) composed: what is printed is left as it is by the buffers of untagged types, at most one kind
  accepts it (its `type`), and each member is read back; by induction on the definition. One witness per condition.
* **C79** the meaning of layouts (C04) says which quads a tree was read from. By induction on the run of the dehydration, what each
  resource it handles stands for in the dataset is extended step by step (`Reproduce.Step`), so that each quad it adds was matched on
  reading; the terms given to resources are those read, up to canonical literals. Names by C14, acceptance by C11 and C67.
* **C80** the induction of C79 also gives the converse: in any part of the dataset that contains what was written (`View`, `Fits`), the same
  tree has the same meaning, since matches that were unique stay so in a part of the dataset. The dataset written is such a part, up to
  renaming (C67). Hydration returns what has a meaning (`HydrateComplete`), without panic, if variants are told apart by their patterns.
* **C81** the induction of C17 with the hypothesis on the dataset weakened to `Named`: it contains what was written, and says nothing else of
  the nodes of the tree in the default graph. The subjects of each document stand for nodes of its own tree only.
* **C82** a consequence of C17 and C67: hydration of isomorphic datasets gives the same tree, and gives both trees back.
* **C83** a record layout that joins several others (`Registry.Joins`: the same patterns and variables, the fields of all of them) reads a
  value exactly if each of them does, and gives each its fields; the induction is on the list of fields.
* **C84** documents written about the same subject with different properties are in one dataset, and each can be read from it: C81 with a
  weaker hypothesis on the subject. What a document says of the subject is limited to the properties of its layout (C68).
  For any layouts (`Verif/Props/Irrelevant.lean`): by C96 the rest of the dataset can be left out, so that each document is read as it is
  alone (`C84_documents`, in a graph `C84_documents_in_graph`); layouts joined as in C83 then read all the members. The property first said
  that every record is read back; it now says so of the records that can be read back alone, since some cannot (C17, C90).
* **C85** `Kept` (`Verif/KeptSpec.lean`) relates a tree written and a tree read. Hydration that succeeds has found the only match of the
  patterns of each layout (C04), and what was written is a match: so it is the match found. Conditions: no value format selects a named
  graph; lists are complete if the terms that end them are used for nothing else; variants are the same if told apart. Nothing is said
  of what `always` layouts read. Reading may fail: C17, C81 and C84 say when it does not.
* **C86** the loop over the items of the module is a function to the options of the generator; the modules declared are a sorted list, of
  which `layout_ref` takes the last match. The prefixes of one IRI are sorted by their length, so that the last match is the longest.
* **C87** a simulation of the matcher: the stack over the dataset and the stack over the graph alone have the same substitutions, and
  quads that differ by the graph. Dehydration: the state with the output moved to the graph.
* **C88** from C87, C81 and C17. Missing: layouts that use several graphs, and what C17 excludes.
* **C89** a second model of the parser of C27, with positions, that is shown to be the same parser apart from positions. `Error.IsTrue`
  says what each error means for the fragment at its position; by induction on the parser every error is true, from a relation
  `At root p j` (the fragments of `j` are those of the document from `p` on). Spans in the text of the file, which come from the JSON
  library, are not modelled. Missing: see section 4.
* **C90** `Unambiguous` (`Verif/ReadBackSpec.lean`): at all the places reading may come to (`Visits`), patterns have one match at most, the
  items of sets excepted. `Says` is `Meaning` (C04) without what is said beyond the tree: patterns may have other matches, records
  other members, sets other items. `C90_said`: by induction on the fuel of dehydration, any dataset with the quads written says the tree.
  `C90_exact`: if the dataset says a tree, is not ambiguous and says nothing else (`Exact`: no match for optional fields without a
  member, no other items in sets), then by induction on the nesting of layouts it means this tree, up to the order and repetition of the
  items of sets, and hydration returns it; for sets this uses that meanings are unique. Together: `C90_sets`. Without sets `Absent` (no
  match for the optional fields that a record of the tree does not have, at the places where it is found, `Finds`) implies `Exact`:
  `C90_optional`. `Follows` and `SingleValued` give a condition on layouts and on data.
  `C90_in_graph`: the same in any graph of a larger dataset, by C87, for layouts that name no graph.
* **C91** (`Verif/Props/CliClosed.lean`) C04 at the level of the tool: the layouts that the tool loads are closed (`C22_loaded`), the dataset
  has no duplicates, and what is written in JSON or CBOR stands for the tree (C35, C49). `CliArgs.OneInput`: the definitions of literals
  in the layout files have one input, which is the default.
* **C92** (`Verif/Props/ReadBackCli.lean`) C90 at the level of the tool: the layouts that the tool loads are closed (C22) and their fields
  sorted (`loaded_sorted`), and JSON documents stand for trees (C35), also those that differ by the order of sets (`SameTree.json`).
* **C45** panics are outcomes of the model; sufficient conditions for their absence (`Layout.Safe`, `HyCtx.Safe`) and
  one witness per condition. `PanicCause` (`Verif/PanicSpec.lean`) lists the situations that make hydration panic at one of the
  places it reads: every panic comes from one of them (`C45_panic_causes`), and each of them, in the layout or one of its
  components, prevents success (`C45_causes_prevent`). At layouts of Booleans, byte
  strings, texts and identifiers they are exactly what makes hydration panic (`C45_value_panics`). Between the two: inside a variant of a sum, or after another error, a cause
  can be an error rather than a panic.
* **C46** provenance invariant, by induction on fuel.
* **C47** as C45, for dehydration: the causes are the literals that a layout cannot write (`Unwritable`, `DeCause`).
* **C51–C53** as C21–C26: invariants of the builder for every outcome of the compilation.
* **C93** (`Verif/Props/ErrorCauses.lean`) `ErrorCause c q e` (`Verif/ErrorSpec.lean`) is what the error `e` says of the place `q`, in terms of
  matches (`Verif/MatchingSpec.lean`) and of the places of `Verif/PanicSpec.lean`, one constructor per kind of error and of what it is about. Proved by
  induction on the bound: each loop returns the error of a match (C02) or of a component; the loop over variants only returns ambiguities.
  The converse uses that a layout that is hydrated has one match for every pattern.
* **C94** (`Verif/Props/DeErrorCauses.lean`) `DeFails c p e` and `DeAccepts c p` (`Verif/DeErrorSpec.lean`) are defined together, by the tree and
  the layouts only: a sum accepts a tree when one variant accepts it and the others fail; it fails when all fail, or when two accept. They exclude
  each other by mutual induction on the derivations. By induction on the bound, each call that succeeds shows that its tree is accepted and each
  call that returns an error shows `DeFails` for that error; both are independent of the state, so the tree accepted once is never rejected.
* **C95** (`Verif/Props/DsErrorCauses.lean`) `DsCause c p e` (`Verif/DsErrorSpec.lean`) is what the error `e` says of the place `p`, in terms of
  matches, of the resources the interpretation knows and of the literals of a resource. As for C93, each loop either returns what a match says
  (C02) or the error of a part; where it succeeds, every part that has a match was read, so that a cause at any depth would have stopped it.
  In contrast to C93 the errors of variants are reported, so there is no exception for them.
* **C96** (`Verif/Props/Irrelevant.lean`) `Concerns reg ref q` (`Verif/IrrelevantSpec.lean`): the quad `q` matches a pattern of a layout that `ref`
  leads to, variables standing for anything. The search goes through candidates in the order of the dataset; without the quads that do not
  concern the layout it goes through the same ones, so that matches and their order, errors and panics are the same.
* **C97** (`Verif/Props/DeriveDatasetOrder.lean`) The patterns of a dataset have the same matches in any order (`requiredMatch_reorder`,
  `uniqueMatch_reorder`), and each step that succeeds for one order succeeds for the other one, by induction over the bound. The
  items of unordered lists are read in the order of the dataset, and which error is reported may depend on it
  (`Witness.C97_order_shows`): the statement speaks of neither.
* **C98** (`Verif/Props/DeriveRename.lean`) The counterpart of C67, by the same simulation of the search for matches
  (`Verif/RenameMatching.lean`), for all outcomes and every bound. Merging two resources changes the outcome (`Witness.C98_merged`).
* **C99** (`Verif/Props/Display.lean`) The text of a tree followed by nothing or by a delimiter is the text of no other tree: by induction on
  the tree, the first character telling the kinds apart. Quoting strings is done by a dependency (`json_syntax`); it is a parameter
  with two laws (`Display.Quotes`), which the quotation of JSON strings satisfies (`Quote.quotes`). The text of rationals is that of
  `num_rational`: numerator and denominator, the latter left out if it is one.
* **C100** (`Verif/Props/Messages.lean`) The beginning of a message tells the kind of error; what is between the fixed parts is then
  cancelled, and the text of a key determines the key by C99. With C93 and C94 a message about a missing required key is true. The texts
  of identifiers are a parameter (`showRef`): of an undefined layout the message tells this text. The two terms of a term ambiguity are
  not modelled (parameter `terms`).
* **C101** (`Verif/Props/VariantOrder.lean`) Two runs of hydration, with `reg` and with `reg'` (`Registry.SameVariants`), are compared: there
  is never a tree in one and an error in the other, and two trees are alike (`TypedValue.Alike`), by induction on the depth. A variant
  that applies in one order applies in the other, and the one that is chosen is the only one. Panics depend on the order
  (`C101_order_decides_panic`: an ambiguous variant of an inner sum hides two variants that apply), but if
  variants are told apart by their patterns, as in C04, there is a tree in both or in none (`C101_told_apart`). Derived deserialization goes through
  all the variants and hides nothing: the same trees are read, always. For dehydration what C94 calls accepted does not depend on the
  order; whether there is a term ambiguity may depend on it (`C101_order_decides_ambiguity`).
* **C102** (`Verif/Props/Relabel.lean`) `Registry.Relabels` says that `reg'` has under `f r` the layout that `reg` has under `r`, with the
  references in it replaced; `f` need not be injective. The two runs go side by side, by induction on the depth, with outcomes related
  by `Out.Relabelled` (errors are the same errors, about `f r`) for hydration, and equal up to errors for dehydration. The identifiers
  decide the order in which the items of unordered lists are sorted (`C102_identifiers_decide_order`). Derived code does not sort: `C102_derived` and `C102_derived_writing`
  (`Verif/Props/RelabelDerived.lean`) are equalities.
* **C103** (`Verif/Props/Relax.lean`) A successful run with `reg` is followed by the run with `reg'` (`Registry.Relaxed`), by induction on the
  depth: a field that is present is read or written alike, and an absent one that was optional still is. For sums something must say
  that no other variant starts to apply: in hydration that variants are told apart by their patterns; derived deserialization selects
  variants by their patterns only, so that nothing is needed; for dehydration there must be no sums; derived serialization writes the variant the
  value is of, so that again nothing is needed (`C103_derived_writing`).
* **C104** (`Verif/Props/Extend.lean`) Equality of outcomes, by induction on the depth, for the layouts that were there before
  (`Registry.Complete`: they only refer to each other). A pattern whose property does not occur in the dataset has no match, so that an added
  field (`Field.Unmentioned`) is absent; a key that does not occur in the tree (`Value.HasKey`) is never looked up. Derived serialization: `C104_derived_writing`.
* **C105** (`Verif/Props/MoreVariants.lean`) Equality of outcomes by induction on the depth, like C104: the patterns of a variant
  that the dataset does not mention (`Variant.Unmentioned`: for some pattern, no quad has its constants) have no match, so the variant
  is passed over. A derived value names its variant by position, so variants added at the end do not matter for serialization
  (`C105_derived_writing`). Dehydration: `C105_dehydrate_partial`, for variants whose layouts accept values of another kind than those
  in the tree, which therefore fail before they write anything.
* **C106** (`Verif/Props/Single.lean`) By computation of the one iteration of each loop, for any outcome of the recursive call: the
  empty pattern has exactly one match, and the inputs are passed on (`SumLayout.single`).
* **C107** (`Verif/Props/RenameKeys.lean`) By induction on the depth, both executions side by side: the results correspond, or both are errors,
  or both the same failure (`Out.Similar`). Fields and entries stay in the order in which they were. The code keeps them sorted by key
  (`BTreeMap`), so this is the renaming in the code if it preserves the order of the keys in use. The order on trees that sorts unordered
  lists is a parameter, required to agree on trees with other keys.

Edits of the model are logged in `seeded/LOG.jsonl`. A failure of a lemma means that its proof no longer goes through, which is weaker than its
claim being false. For edits marked as generated only the first failure is recorded, and the claim only where the failing theorem names it;
generated edits that are not valid Lean are left out.

Status per property is in `MANIFEST.json`; defects of the code found on the way are listed in section 4.

## 4. Disagreements between properties and code

Each entry names the theorem that exhibits the disagreement on a concrete input of the model.

* **C89** (`Witness.C89_message_shows_position`) The messages about a pattern, an IRI, a language tag, a number or a regular
  expression use `{0}`, which is the position, not the value: the pattern `a b` is reported as "invalid IRI or blank node identifier
  `9`". (`Witness.C89_not_too_large`) The number `1e3` is reported as an integer that is too large. An invalid language tag is
  reported at the literal that contains it.
* **C07** The order in which quads are enumerated can decide between a value and a panic (`C07_order_decides_panic`):
  an item that fails makes the variant fail quietly if it is met before the item that panics.
* **C101** (`C101_order_decides_panic`) So can the order of the variants of a sum: an error of an inner sum makes the outer variant fail
  quietly, whereas two inner variants that apply make hydration panic, and the order decides which is met first. In dehydration the
  order decides whether a variant that leaves traces (C15) is tried, hence whether there is a term ambiguity
  (`C101_order_decides_ambiguity`).
* **C102** (`C102_identifiers_decide_order`) Typed trees are compared with their annotations, so that renaming layouts may change the order
  of the items of an unordered list in the tree that is printed. The statement of C102 excepts this order.
* **C103** (`C103_sum_reading`, `C103_sum_writing`) If a required field of a variant of a sum is made optional, another value may start to
  fit this variant as well: hydration, which read it, panics, and dehydration, which wrote it, reports an ambiguity.
* **C104** (`C104_derived_unknown`) In derived code, an optional field that is added for a property that the interpretation does not know
  makes deserialization fail with `MissingData`, see also C61.
* **C105** (`C105_dehydrate_violated`) In dehydration, an added variant that does not fit the tree may leave quads behind (see also
  C15): after a variant for cats is added, dogs are said to be cats. (`C105_derived_unknown`) In derived code, a variant that is added
  with a constant that the interpretation does not know makes deserialization fail (see also C104).
* **C106** (`C106_hydrate_panics`) What is an error of a layout is a panic of the sum with this layout as its only variant, in
  hydration (a `todo!()`, see also C08). The statement of C106 is about what is read.
* **C08** (`C08_sum_panics`) The match of a variant starts from the layout's substitution instead of the variant's
  (`distill/hy/mod.rs` L264-268), so a variant that introduces a variable and uses it in its pattern panics with an
  index out of bounds. No applicable variant, or two of them, is a `todo!()`.
* **C09** (`C09_cyclic_list_diverges`) A node that is its own successor makes hydration loop forever.
* **C11** (`C11_term_ambiguity`) A conforming record can be rejected: when two fields describe the same resource with
  different literals, `TermAmbiguity` is reported after the whole tree has been accepted.
* **C15** (`C15_failed_variant_leaks`) Variants write to the shared output before they fail, and nothing is rolled back:
  a value of the second variant also gets the type triple of the first.
* **C16** (`C16_graph_ignored`, `C16_wrong_graph`) `dehydrate_with` passes the current graph around but never uses it:
  its result does not depend on it. Quads of a sub-value whose format selects a graph are written to the default graph,
  where hydration does not look.
* **C17** (`C17_absent_identifier_fails`, `C17_same_identifier_fails`) A record whose optional identifier field is absent
  dehydrates to a blank node, on which hydration panics. Two records with the same identifier are merged.
  (`C17_identifier_variant_fails`) A record written with a sum that also has an identifier variant cannot be read back:
  hydration tries to read its blank node as an identifier and panics.
* **C18** (`C18_empty_list_fails`) The empty ordered list is written as a new blank node with no triple instead of the end
  of list; hydration then fails with missing data.
* **C20** (`C20_patterns_ignored`, `C20_unmatched_string_accepted`) The pattern of a text or id layout is never read by
  hydration or dehydration.
* **C43** (`C43_cyclic_sum_diverges`) A sum layout that refers to itself makes dehydration recurse forever.
* **C47** (`C47_panics`) Byte strings, numbers without finite decimal expansion, unsupported datatypes and datatypes that
  are not IRIs are `todo!()`/`unwrap` panics.
* **C45** (`C45_panics`) A declared variable that occurs in no pattern, a byte string, a language-tagged string, two
  literals of the requested datatype, an invalid boolean literal and a resource without exactly one IRI all panic.
* **C29** (`C29_product_epsilon_counterexample`) `Automaton::product` follows an ε-transition of one automaton only together
  with an ε-transition of the other, so strings accepted by both can be rejected by the product.
* **C40** (`C40_try_map_counterexample`, `C40_minimize_counterexample`) `try_map` and `minimize` return an automaton without
  final states. (`C40_compress_counterexample`, `C40_compress_diverges`) `compress` keeps the transitions of the initial
  state only, and loops on a cycle of states with one transition.
  (`C40_minimize_panics`) `minimize` panics on the partition computed by `partition` when an unreachable state has a transition.
* **C30** (`C30_sequence_counterexample`, `C30_text_counterexample`) `build_into` returns, for a sequence, the state reached
  after the last item instead of the first state, so a pattern such as `ab` is compiled to an automaton that accepts only the
  empty string. (`C30_repeat_counterexample`) `x{2,1}` accepts `x`, and so does `(x{2,})*`, because the loop is added between
  the states that the inner loop uses. (`C30_empty_panics`) An empty character set fails a debug assertion.
* **C31** (`C31_postfix_counterexample`) `*`, `?` and `+` apply to the whole alternative read so far: `ab*` means `(ab)*`.
  (`C31_display_counterexamples`) `Any` is printed as `.`, which is parsed as a full stop; bounds are printed as `{n,m}`,
  which are parsed as characters; an empty union in a sequence is dropped; a nested sequence of one repetition is printed
  without parentheses.
* **C32** (`C32_trailing_dash_counterexample`) After a character a dash always starts a range, so `[a-]` is unterminated. The
  theorem is about the grammar that the parser follows.
* **C33** (`C33_repeat_counterexample`, `C33_missed_counterexample`) `as_singleton` ignores repetition counts: `c{2}` gives
  `c`. It misses `a|a` and `()?`.
* **C34** (`C34_negative_counterexample`) For numbers from `-1` down `decimal_representation` prints the sign twice: `-3/2` gives
  `--1.5`, because the division of the signed numerator already carries the sign.
* **C35** (`C35_negative_counterexample`) As a consequence such numbers are refused by the conversion to JSON.
  (`C35_exponent_panics`) A JSON number with an exponent makes the conversion to a tree panic, because it is read as an
  `xsd:decimal` and unwrapped.
* **C39** (`C39_zero_panics`) The CBOR encoding of `0` panics (`iter_u64_digits().next().unwrap()`).
  (`C39_bignum_counterexample`) From `-2^64` down the bytes are those of the two's complement instead of `-1 - n`.
* **C48** (`C48_constant_counterexample`) The constant of a unit layout is encoded as `null` in CBOR, but not in JSON.
* **C50** (`C50_zero_panics`) Serializing `0` panics. (`C50_bignum_counterexample`) Integers of more than 64 bits are rounded.
* **C24** (`C24_overwrites`) The layout is inserted before the check: a reported redefinition has already replaced the layout.
* **C26** (`C26_literal_inputs`) Literal layouts can be defined with any number of inputs, but always require one; a resource
  other than the first input then makes hydration panic.
* **C23** (`C23_literal_inputs`) For the same reason, dehydration with such a layout can fail with an undeclared variable: one variable
  is bound, whatever the number of inputs is.
* **C51** (`C51_unnamed_clash`) `Layout::build` starts a new generator each time, so a second unnamed layout in the same builder
  replaces the first one. With a shared generator (`build_with_context`) there is no clash.
* **C53** (`C53_set_operations_panic`) Union and intersection layouts can be parsed, but are `unimplemented!()`.
* **C27** (`C27_duplicate_field_accepted`) Of two fields (or variants, prefixes, extra properties) of the same name, the first
  one is dropped without an error, whereas duplicates of the members of layouts are errors.
  (`C27_documented_number_rejected`) The documentation gives `{ "type": "number" }` as an example; the parser requires a
  `datatype`.
* **C54** (`C54_exponent_panics`) A constant such as `1e3` makes the parser panic.
* **C56** (`C56_default_resource_rejected`) A literal layout with the default resource is serialized with `"resource": null`,
  which the parser rejects. (`C56_default_graph_lost`) `graph: Some(None)`, the default graph, is serialized as `null`, which is
  parsed as no graph. (`C56_nested_boolean_rejected`) Nested boolean layouts are serialized as `true` or `false`, which are only
  accepted at the root. (`C56_string_literal_rejected`) Literal patterns of type `xsd:string` are serialized without `type`,
  and the parser then requires a `language`. (`C56_list_of_default_lost`) A list of one name that is the default is read back as
  the name, which is not an equal value.
* **C60** (`C60_range_violated_dehydrate`, `C60_range_violated_hydrate`) The integer layouts of the prelude, such as `u8`, do not
  check ranges: any decimal is dehydrated as, and hydrated from, a literal of type `xsd:unsignedByte`.
* **C44** (`C44_violated`) Of the layouts that the Rust generator accepts, the following are not read back from the generated type:
  sets (`BTreeSet` is generated, the derive macro requires `Vec` and rejects it), booleans, numbers, strings and bytes (no kind is
  printed, so the type is read as a tuple with one item), optional fields (no requiredness is printed, every field becomes
  required), constants of unit layouts, resources and patterns of id layouts.
* **C61** (`C61_violated`) In derived enumerations, a variant whose pattern matches but whose value cannot be read makes the whole
  deserialization fail, though another variant could be read (`hydrate` goes on with it). A field whose property the interpretation does not
  know makes it fail with `MissingData` even when the field is optional (`hydrate` finds it absent). Integers outside of the Rust type
  are rejected. The runtime type `Id` reads blank nodes, `hydrate` does not.
* **C62** (`C62_violated`) Derived code writes the variant the value is of, where `dehydrate` fails if the tree fits several. When the
  resource of an identifier layout is not its input, derived code gives the identifier to the input anyway. When the resource of a
  literal layout is introduced by the layout, derived code panics (`unwrap` of an index out of the inputs).
* **C65** (`C65_same_name`) Distinct layouts get types of the same name when their names only differ by case and underscores, or by
  what comes before the fragment: the generated code does not compile. (`C65_nested`) A layout defined in place of a reference has no
  name, and makes the macros abort; the tool fails likewise on such a layout. (`C65_invalid_ignored`) `tldr-rs` reports an invalid
  file and goes on as if it had not been given, and succeeds. A file that cannot be read is a panic.
* **C66** (`C66_language`) The macros drop language tags: a literal with a tag is read as an `xsd:string`, because the untagged type has a
  default and ignores unknown members. (`C66_number`) They read a number given as the constant of a unit layout as a record with one field
  (`serde_json` has the feature `arbitrary_precision`, and numbers are maps in the buffer of an untagged enumeration).
  (`C66_extra`) They reject extra properties whose value is a number. The last two only concern definitions deserialized from a text, as
  the macros and `tldr-rs` do; from a `serde_json::Value`, integers are read (`C66_value_partial`, `C66_value_numbers`). (`C66_only_macros`) They accept documents that `treeldr` rejects:
  `null` for optional members, arrays for objects, nested Booleans, literals with misspelled members.
* **C72** (`C72_unimplemented`) The generator uses `()` and `bool` for the layouts `unit` and `boolean` of the prelude, but the runtime
  implements its traits for neither, so that code generated for layouts that refer to them does not compile.
  (`C72_trivial`) The types generated for the layouts `always` and `never` are aliases of `treeldr::Always` and `treeldr::Never`, which
  the runtime crate does not have.
* **C73** (`C73_prefix`) The derive macros name the types of fields `rust:/#Type0`, `rust:/#Type1`, … and look them up after compilation.
  With an attribute `#[tldr(prefix("rust" = "…"))]` these names are expanded as compact IRIs, and the macro panics.
* **C73** (`C73_raw`) The derive macros panic for fields and variants with raw names (`r#type`): `syn::Ident::new` is called with the name.
* **C74** (`C74_id`) The attribute `id("…")` of types is never read: `id` is a kind of layout, so that `id("…")` is an unexpected token, or
  a second kind. The code that would read the identifier is unreachable.
* **C76** (`C76_numbers_fail`) `tldr convert` from JSON to JSON fails for `-1`, panics for `1e3`; from JSON to CBOR it panics for `0`.
  (These are C35's and C50's, seen from the command line.) The same panic limits C77 (`C77_cbor_partial`).
* **C78** (`C78_language_lost`) A literal with a language tag is deserialized as an `xsd:string`. (`C78_number_rejected`) A definition with
  an extra property that is a number is serialized to a document that is rejected, whatever the number. (`C78_default_graph_lost`,
  `C78_list_of_default_lost`) The default graph, and a list of one name that is the default, are lost as in C56. (`C78_key_lost`) Keys of
  records that are not text are serialized as text. (`C78_number_lost`) A unit layout whose constant is a number is read back with a record.
* Seen in the macros, but not modelled, since what is modelled is the behaviour of code that compiles: the generated code does not seem
  to compile for tuple structures with one item (`(None)` is not a tuple), for literal layouts with a constant resource (a method is
  called with too many arguments), for explicit graphs in serialization (a pattern is passed by value where a reference is expected), for IRIs among
  the inputs of a value in serialization (`rdf` is borrowed mutably twice), for byte strings, and for fields of type `bool` or `()` (no
  implementation of the traits in the runtime). Serialization ignores the current graph when it writes patterns, as `dehydrate` does, while
  deserialization reads them in the current graph.
* **C79** (`C79_failed_variant_adds`) A dog that was read through a sum is written as a cat too: see C15. (`C79_graph_adds`) What was read
  in a graph is written in the default graph: see C16. (`C79_unbound_introduction_adds`) A record may introduce a variable that it does not
  bind, and that two of its fields use: each field is read with its own binding of the variable, and both are written with the same node,
  so that two resources become one. Proved when sums are decided, variables bound and no part has a graph of its own.
* **C80** (`C80_shared_node`) A node with an identifier is read at two places, and a part of it is a blank node: each place writes this part
  under a new name, the identified node has two such parts, and the second reading fails (ambiguity). Besides, the exclusions of C79
  remain. Proved when no two terms written stand for the same term of the dataset, e.g. when no name has to be generated.
* **C81** (`C81_default_names`) Two documents written with the default options have the same blank nodes (`_:input0`, `_:0`, …): put together
  without renaming, neither can be read. Proved when the names are apart.
* **C82** (`C82_constants`) The variants of a sum may be constants without any triple: all of them are written as the empty dataset. Proved
  for the layouts and trees of C17.
* **C85** (`C85_cut`) A list whose subject is named like the end of lists (`rdf:nil`, with an input term generator that gives it) is written
  without error, and read as the empty list. (`C85_empty`) Nothing is written for an empty list; see C18.
* **C86** (`C86_local_layout`) A layout defined by the files of the macro, whose IRI has a declared prefix, gets a type that no other type
  uses. (`C86_no_content`) `#[tldr("file")] mod name;` gives an empty module rather than an error.
* Seen in the documentation: the example of a number layout (`layouts/src/abs/syntax/layout/mod.rs` L54) lacks the member `datatype`, which
  is required.
