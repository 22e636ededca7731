{"id": "C01", "title": "Pattern matching is sound, complete and duplicate-free", "statement": "Iterating Matching::new(dataset, substitution, patterns) terminates and yields exactly the substitutions that keep every binding of the given partial substitution, bind exactly the variables that were bound or occur in the patterns, and map every pattern quad to a quad of the dataset; each such substitution is yielded once.", "quantifier": "every finite dataset, every initial partial substitution, every finite list of pattern quads whose variables are declared", "why_tests_cant": "A test fixes one dataset and one pattern list; the search interleaves backtracking with repeated variables, so only an argument over all pattern lists excludes missed, spurious or repeated matches and non-termination.", "anchors": ["layouts/src/matching.rs: Matching::new, Iterator::next, quad_matching_pattern", "layouts/src/pattern.rs: Substitution::with_quad, set", "generators/rust/treeldr-rs/src/de/matching.rs", "generators/rust/treeldr-rs/src/pattern.rs"]}
{"id": "C02", "title": "Unique-match queries classify correctly", "statement": "into_unique returns Ok(None) exactly when no substitution matches, Ok(Some(s)) exactly when s is the only match, and Ambiguity exactly when two different matches exist; into_required_unique additionally turns 'no match' into Empty.", "quantifier": "every dataset (as a set of quads), substitution and pattern list whose variables are declared", "why_tests_cant": "Absence of a second match is a universally quantified fact about the whole dataset; tests only show it on samples.", "anchors": ["layouts/src/matching.rs: Matching::into_unique, into_required_unique"]}
{"id": "C03", "title": "Matching is order independent", "statement": "The set of matches, and the outcome of a unique-match query, depend only on which quads are in the dataset and which patterns are asked for, not on the iteration order of either.", "quantifier": "every permutation of dataset quads and of pattern quads (whose variables are declared)", "why_tests_cant": "There are factorially many orders; back-tracking order bugs appear only for particular ones.", "anchors": ["layouts/src/matching.rs: Matching", "layouts/src/distill/hy/mod.rs: hydrate_with_ref"]}
{"id": "C04", "title": "Hydration computes the declarative meaning of a layout", "statement": "Whenever hydrate returns (a panic is not a return), it returns a value exactly when the layout's declarative reading over the dataset (each dataset pattern has a unique match extending the inputs, fields present iff their pattern matches, list items one per match or one per chain node, exactly one variant succeeding) derives that value, and an error exactly when the reading derives nothing.", "quantifier": "every registry of closed layouts (C22), dataset, graph, layout reference and input list", "why_tests_cant": "The specification quantifies over all matches in the dataset and over arbitrarily nested layouts.", "anchors": ["layouts/src/distill/hy/mod.rs: hydrate_with_ref, select_inputs, select_graph", "layouts/src/distill/hy/data.rs: hydrate_data"]}
{"id": "C05", "title": "A hydrated tree conforms to its layout", "statement": "Whenever hydrate succeeds, the resulting tree has the shape its layout prescribes: records contain only declared keys and all required keys, sized lists have the declared length, literals have the declared kind, unit layouts give their constant, a sum gives a value of one of its variants, and the never layout gives nothing.", "quantifier": "every registry, dataset and inputs, at any nesting depth", "why_tests_cant": "Conformance must hold at all depths for all data, including data with missing or extra triples.", "anchors": ["layouts/src/distill/hy/mod.rs: hydrate_with_ref", "layouts/src/distill/hy/data.rs: hydrate_data", "layouts/src/value/mod.rs: TypedValue::into_untyped"]}
{"id": "C06", "title": "Type annotations of a hydrated tree point at the layouts that produced it", "statement": "In a successful hydration the annotation on every node of the typed value is the reference of the layout used for that node, a variant annotation carries the index of a declared variant, and erasing annotations gives the plain tree.", "quantifier": "every registry, dataset, inputs; every node of the result", "why_tests_cant": "Annotations drive CBOR tagging; a wrong reference at some depth is visible only for some layout nestings.", "anchors": ["layouts/src/distill/hy/mod.rs: hydrate_with_ref", "layouts/src/value/mod.rs: TypedValue, TypedLiteral, type_, into_untyped"]}
{"id": "C07", "title": "Hydration treats the dataset as a set", "statement": "Reordering the quads of the dataset does not change the result of hydrate: neither whether it returns a value, nor the value.", "quantifier": "every dataset permutation, registry, layout and inputs", "why_tests_cant": "Set layouts collect matches in iteration order and then sort; only a proof covers every order.", "anchors": ["layouts/src/distill/hy/mod.rs: hydrate_with_ref (Unordered: items.sort_unstable)"]}
{"id": "C08", "title": "Sum hydration selects the single applicable variant", "statement": "Hydrating a sum layout returns the value of the only variant whose pattern matches and whose sub-layout hydrates; zero or several applicable variants are reported as errors and variants may introduce their own variables.", "quantifier": "every sum layout, dataset and inputs", "why_tests_cant": "Requires considering every subset of succeeding variants and every number of variant variables.", "anchors": ["layouts/src/distill/hy/mod.rs: Layout::Sum branch (lines 246-322)"]}
{"id": "C09", "title": "Ordered list hydration follows the node chain from head to tail", "statement": "Hydrating an ordered list yields the items of the unique chain of nodes from head to tail in chain order; it returns for every dataset (a cyclic chain is an error, not a hang).", "quantifier": "every ordered list layout, dataset and inputs, chains of every length", "why_tests_cant": "Chain length is unbounded and cycles cannot be explored by terminating tests.", "anchors": ["layouts/src/distill/hy/mod.rs: ListLayout::Ordered branch (lines 438-501)"]}
{"id": "C10", "title": "Dehydration accepts only conforming trees", "statement": "If dehydrate succeeds on a value then the value conforms to the layout: no unknown record key, no missing required key, exact sized-list length, literal kinds as declared, identifiers are IRIs, units equal to their constant, sums by some variant, never nothing.", "quantifier": "every value, registry, layout reference and inputs", "why_tests_cant": "Rejection must hold for all ill-formed trees at all depths.", "anchors": ["layouts/src/distill/de/mod.rs: dehydrate_with_ref, dehydrate_sub_value"]}
{"id": "C11", "title": "Dehydration accepts every conforming tree", "statement": "If a value conforms to a layout (unambiguously at sums) whose patterns use declared variables and whose literal datatypes are supported, dehydrate succeeds on it.", "quantifier": "every value, registry and layout, any depth", "why_tests_cant": "Completeness is about all trees.", "anchors": ["layouts/src/distill/de/mod.rs: dehydrate_with_ref"]}
{"id": "C12", "title": "Dehydration only adds to its output", "statement": "Whatever its outcome, dehydrate_with never removes a quad from the output dataset nor a term assigned to a resource, and never reuses a previously created resource.", "quantifier": "every value, layout, registry, initial output state and outcome (success or error)", "why_tests_cant": "Monotonicity must hold along every path including error paths.", "anchors": ["layouts/src/distill/de/mod.rs: dehydrate_with, Environment::intro, instantiate_dataset"]}
{"id": "C13", "title": "Resources introduced during dehydration are fresh and pairwise distinct", "statement": "Every intro variable and every intermediate list node is bound to a resource different from the inputs, from every resource created before and from every other introduced one.", "quantifier": "every value, layout and registry", "why_tests_cant": "Freshness is a global invariant of the run.", "anchors": ["layouts/src/distill/de/mod.rs: InputInterpretation::new_resource, Environment::intro, ListLayout::Ordered branch"]}
{"id": "C14", "title": "Every resource gets one term in the dehydrated dataset", "statement": "On success the returned dataset is the image of the internal quads under one function from resources to terms that fixes terms, respects every identifier/literal assigned to a resource and gives unassigned resources distinct generated blank nodes; the number of returned subjects is the layout's input count; if two different terms were assigned to one resource the result is TermAmbiguity.", "quantifier": "every value, layout, registry and options", "why_tests_cant": "Naming is stateful (lazily generated identifiers); consistency is about all occurrences of a resource.", "anchors": ["layouts/src/distill/de/mod.rs: dehydrate (lines 412-507), map_resource"]}
{"id": "C15", "title": "Variants that do not apply leave no trace in the output", "statement": "Dehydrating through a sum layout outputs only the quads and term assignments of the selected variant.", "quantifier": "every sum layout and value", "why_tests_cant": "Requires relating the output of the whole run to the output of the selected variant alone for arbitrary failing variants.", "anchors": ["layouts/src/distill/de/mod.rs: Layout::Sum branch (lines 669-705)"]}
{"id": "C16", "title": "Layout patterns without graph are written to the current graph", "statement": "When a value format selects a named graph, the quads emitted by dehydrating the sub-value are placed in that graph, mirroring hydrate which reads them from it.", "quantifier": "every layout with a graph selector and value", "why_tests_cant": "Needs agreement of two independent traversals for all layouts.", "anchors": ["layouts/src/distill/de/mod.rs: Environment::instantiate_dataset, dehydrate_sub_value", "layouts/src/utils/mod.rs: with_default_graph", "layouts/src/distill/hy/mod.rs: select_graph"]}
{"id": "C17", "title": "Record round trip", "statement": "Dehydrating a record and hydrating the resulting dataset from the returned subjects with the same layout gives back the same record.", "quantifier": "every record layout whose fields use distinct properties and literal or nested record values, every conforming value", "why_tests_cant": "Any number of fields, any optional subset, any nesting.", "anchors": ["layouts/src/distill/de/mod.rs: dehydrate", "layouts/src/distill/hy/mod.rs: hydrate"]}
{"id": "C18", "title": "Ordered list round trip", "statement": "Dehydrating an ordered list and hydrating the result gives back the same list, for every length including zero.", "quantifier": "every list of literal items", "why_tests_cant": "Unbounded length; boundary at the empty list.", "anchors": ["layouts/src/distill/de/mod.rs: ListLayout::Ordered branch", "layouts/src/distill/hy/mod.rs: ListLayout::Ordered branch"]}
{"id": "C19", "title": "Variables resolve to the input or introduction at their index", "statement": "During (de)serialization variable i denotes the i-th resource in the sequence inputs, then introductions in nesting order; an index beyond that sequence is reported as UndeclaredVariable.", "quantifier": "every nesting of environments and every index", "why_tests_cant": "Index arithmetic crosses arbitrarily many nested frames.", "anchors": ["layouts/src/distill/de/mod.rs: Environment::get, bind, intro, instantiate_pattern", "generators/rust/treeldr-rs/src/ser/environment.rs", "layouts/src/pattern.rs: Substitution"]}
{"id": "C20", "title": "String patterns are enforced", "statement": "A string (or id) layout with a pattern only accepts, in both directions, strings matching the pattern.", "quantifier": "every pattern and string", "why_tests_cant": "All strings.", "anchors": ["layouts/src/distill/de/mod.rs: DataLayout::TextString branch", "layouts/src/distill/hy/data.rs: TextString branch", "layouts/src/layout/literal/data/text_string.rs: pattern"]}
{"id": "C21", "title": "Variable names resolve lexically", "statement": "In a layout definition a variable name denotes its innermost declaration: the compiled index is the position of the last binding of the name in the sequence input, intro, inner intros; undeclared names are rejected; nested layouts do not see outer variables.", "quantifier": "every sequence of headers and introductions and every name", "why_tests_cant": "Shadowing and nesting are unbounded.", "anchors": ["layouts/src/abs/syntax/build.rs: Scope::with_header, with_intro, bind, variable, without_variables"]}
{"id": "C22", "title": "Compiled layouts are closed", "statement": "Every layout produced by building a layout definition only uses variable indices below the number of variables in scope at that place (inputs, intros, and for list nodes head and rest).", "quantifier": "every layout definition that builds successfully", "why_tests_cant": "All definitions, any nesting.", "anchors": ["layouts/src/abs/syntax/layout/*.rs: Build impls", "layouts/src/abs/syntax/build.rs: Scope"]}
{"id": "C23", "title": "Closed layouts never fail with an undeclared variable", "statement": "Dehydrating any value with layouts obtained from layout definitions never returns UndeclaredVariable.", "quantifier": "every built registry and value", "why_tests_cant": "All values and layouts.", "anchors": ["layouts/src/distill/de/mod.rs: Environment::instantiate_pattern", "layouts/src/abs/syntax/build.rs"]}
{"id": "C24", "title": "A layout identifier is defined at most once", "statement": "Building a definition whose identifier is already defined reports LayoutRedefinition and leaves previously built layouts unchanged; otherwise the registry gains exactly the new layouts.", "quantifier": "every builder state and definition", "why_tests_cant": "History dependent: any sequence of previous builds.", "anchors": ["layouts/src/abs/syntax/layout/mod.rs: Layout::build", "layouts/src/abs/mod.rs: Builder::insert", "src/main.rs: load_layout"]}
{"id": "C25", "title": "Compact property syntax means the explicit pattern", "statement": "A field, list item or set item declared with a property compiles to the same layout as the explicit dataset pattern (subject = first input, object = first introduced variable), and the default list node compiles to rdf:first/rdf:rest.", "quantifier": "every property, scope, introduction list and sub-layout", "why_tests_cant": "All scopes (variable offsets) and contents.", "anchors": ["layouts/src/abs/syntax/layout/product.rs: Field build", "layouts/src/abs/syntax/layout/list.rs: ListItem build, default_list_dataset"]}
{"id": "C26", "title": "The number of inputs required by a layout is the number it declares", "statement": "A layout defined with n inputs requires exactly n inputs when hydrating and dehydrating.", "quantifier": "every layout definition and n", "why_tests_cant": "All kinds of layouts and all n.", "anchors": ["layouts/src/layout/mod.rs: Layout::input_count", "layouts/src/abs/syntax/layout/mod.rs: LayoutHeader"]}
{"id": "C27", "title": "Layout files reject unknown and duplicate members", "statement": "Parsing a layout object consumes each member at most once, rejects any member that the layout kind does not define and any duplicate of a consumed member.", "quantifier": "every JSON object", "why_tests_cant": "All sets of members in all orders.", "anchors": ["layouts/src/abs/syntax/mod.rs: ObjectUnusedEntries, get_entry, require_entry"]}
{"id": "C28", "title": "Determinization preserves the language", "statement": "For every non-deterministic automaton the determinized automaton accepts exactly the same strings and has at most one applicable transition per character.", "quantifier": "every finite automaton with ranges and epsilon transitions; every string", "why_tests_cant": "Language equality is about infinitely many strings.", "anchors": ["layouts/src/utils/automaton.rs: modulo_epsilon_state, determinize_transitions_for, determinize"]}
{"id": "C29", "title": "Products accept the intersection", "statement": "The product of two automata accepts exactly the strings accepted by both.", "quantifier": "every pair of automata, every string", "why_tests_cant": "Language equality is about infinitely many strings.", "anchors": ["layouts/src/utils/automaton.rs: Automaton::product, DetAutomaton::product"]}
{"id": "C30", "title": "A compiled regular expression recognizes the language of the expression", "statement": "RegExp::build yields an automaton accepting exactly the strings denoted by the expression (sequence, union, counted repetition, sets).", "quantifier": "every expression and string", "why_tests_cant": "Infinitely many expressions and strings.", "anchors": ["layouts/src/abs/regexp.rs: build, build_non_deterministic, build_into, build_repeat_into"]}
{"id": "C31", "title": "Regular expression syntax", "statement": "Postfix operators apply to the preceding item only, and parsing the printed form of an expression gives an expression with the same language.", "quantifier": "every expression", "why_tests_cant": "Infinitely many expressions.", "anchors": ["layouts/src/abs/regexp.rs: parse, Display"]}
{"id": "C32", "title": "Character classes denote the listed characters", "statement": "A bracket expression matches exactly the characters and ranges listed, and its complement when it starts with ^.", "quantifier": "every bracket expression and character", "why_tests_cant": "All class bodies including dashes, escapes and reversed ranges.", "anchors": ["layouts/src/abs/regexp.rs: parse_charset, parse_escaped_char"]}
{"id": "C33", "title": "Singleton detection", "statement": "as_singleton returns a string exactly when that string is the only string matched by the expression.", "quantifier": "every expression", "why_tests_cant": "Infinitely many expressions.", "anchors": ["layouts/src/abs/regexp.rs: is_singleton, build_singleton, as_singleton"]}
{"id": "C34", "title": "Exact decimal rendering of numbers", "statement": "decimal_representation terminates, returns a decimal numeral exactly when the rational has a finite decimal expansion, and the numeral denotes the number.", "quantifier": "every rational number", "why_tests_cant": "Infinitely many rationals; loop termination by remainder repetition.", "anchors": ["layouts/src/value/mod.rs: Number::decimal_representation, TryFrom<Number>"]}
{"id": "C35", "title": "JSON conversion round trip", "statement": "Converting a JSON-compatible tree to JSON and back gives the same tree, and non JSON-compatible trees are rejected (byte strings, non-string keys, non-decimal numbers).", "quantifier": "every tree", "why_tests_cant": "All nestings.", "anchors": ["layouts/src/value/mod.rs: From<json_syntax::Value>, TryFrom<Value> for json_syntax::Value"]}
{"id": "C36", "title": "Layout registries compose with precedence", "statement": "Looking up a layout in a combined registry returns the first registry's layout when it defines the reference and otherwise the second's; the CLI's own layouts take precedence over the prelude.", "quantifier": "every pair of registries and every reference", "why_tests_cant": "All registries.", "anchors": ["layouts/src/lib.rs: LayoutRegistry::with, into_with, LayoutRegistryUnion", "src/main.rs: run"]}
{"id": "C37", "title": "Default layout selection", "statement": "The CLI uses the explicitly requested layout, or else the layout of the only layout file; with no file or several it fails with NoDefaultLayout / AmbiguousDefaultLayout.", "quantifier": "every sequence of layout files", "why_tests_cant": "All sequences.", "anchors": ["src/main.rs: DefaultLayoutRef, run"]}
{"id": "C38", "title": "Dependencies of a layout are complete and listed once", "statement": "dependencies() lists every layout reference mentioned by the layout, in increasing order, without repetition, and nothing else.", "quantifier": "every layout", "why_tests_cant": "All layouts.", "anchors": ["layouts/src/layout/mod.rs: Layout::dependencies, visit_dependencies"]}
{"id": "C39", "title": "CBOR numbers keep their value", "statement": "Encoding an integer to CBOR and decoding it according to RFC 8949 gives the same integer.", "quantifier": "every integer", "why_tests_cant": "All magnitudes and signs, boundaries at 64 bits.", "anchors": ["layouts/src/value/cbor/serde_cbor.rs: From<Number> for serde_cbor::Value"]}
{"id": "C40", "title": "State renaming and minimization preserve the language", "statement": "DetAutomaton::map with an injective function, try_map, minimize and compress produce automata accepting the same strings.", "quantifier": "every deterministic automaton and string", "why_tests_cant": "Infinitely many automata and strings.", "anchors": ["layouts/src/utils/automaton.rs: DetAutomaton::map, try_map, minimize, compress"]}
{"id": "C41", "title": "Automaton serialization round trip", "statement": "Deserializing the serialized transition table of a deterministic automaton gives an automaton accepting the same strings.", "quantifier": "every deterministic automaton", "why_tests_cant": "All automata.", "anchors": ["layouts/src/utils/automaton.rs: DetTransitions Serialize/Deserialize"]}
{"id": "C42", "title": "Reachability", "statement": "reachable_states enumerates exactly the states reachable from the initial state, each once, and terminates. select_states gives those that satisfy the predicate; partition groups them by the value of the function, or stops with an error of the function.", "quantifier": "every deterministic automaton", "why_tests_cant": "Graph traversal over arbitrary graphs.", "anchors": ["layouts/src/utils/automaton.rs: DetAutomaton::reachable_states, ReachableStates, select_states, partition, try_partition"]}
{"id": "C43", "title": "Results do not depend on how long the computation is allowed to run", "statement": "Hydration and dehydration are deterministic functions: once they return, the returned result is the only possible result; dehydration terminates on every value when layout references are not cyclic through sums.", "quantifier": "every registry, value, dataset", "why_tests_cant": "Recursion through the registry is not structural.", "anchors": ["layouts/src/distill/hy/mod.rs: hydrate_with_ref", "layouts/src/distill/de/mod.rs: dehydrate_with_ref"]}
{"id": "C44", "title": "Generated Rust types carry the layout they were generated from", "statement": "The attributes printed by the Rust generator, when parsed back by the derive macro, build the same layout (variable numbering, datasets, inputs, graph, requiredness).", "quantifier": "every layout the generator accepts", "why_tests_cant": "Composition of printer, parser and scope resolution for all variable counts.", "anchors": ["generators/rust/generator/src/lib.rs: generate, generate_intro_attribute, pattern_to_id", "generators/rust/treeldr-rs-macros/src/parse.rs"]}
{"id": "C45", "title": "Hydration does not panic", "statement": "hydrate never panics: whatever the dataset, layouts and inputs, it returns a value or an error.", "quantifier": "all datasets, all interpretations of resources, all closed layout registries, all inputs", "why_tests_cant": "The panics are in branches (todo!, unwrap, slice indexing) reached only by particular data shapes; a test suite only shows the shapes it contains.", "anchors": ["layouts/src/distill/hy/mod.rs: hydrate_with_ref", "layouts/src/distill/hy/data.rs", "layouts/src/pattern.rs: Substitution::get"]}
{"id": "C46", "title": "Dehydrated quads come from layout patterns", "statement": "Every quad written by dehydration is an instance of a quad pattern that appears in one of the layouts of the registry.", "quantifier": "all values, layouts, inputs and prior states, whatever the outcome", "why_tests_cant": "A stray quad would only appear for particular nestings of layouts and values.", "anchors": ["layouts/src/distill/de/mod.rs: dehydrate_with_ref, instantiate_dataset"]}
{"id": "C47", "title": "Dehydration does not panic", "statement": "dehydrate never panics: whatever the value, layouts and options, it returns a dataset or an error.", "quantifier": "all values, all closed layout registries, all options", "why_tests_cant": "The panics are in todo!/unwrap branches reached only by particular datatypes and numbers.", "anchors": ["layouts/src/distill/de/mod.rs: dehydrate_with_ref", "layouts/src/distill/de/data.rs"]}
{"id": "C48", "title": "CBOR encoding of typed trees agrees with the untyped tree", "statement": "Converting a typed tree to CBOR gives the same CBOR value as converting the tree obtained by erasing its types.", "quantifier": "every typed tree", "why_tests_cant": "All nestings and kinds of layouts.", "anchors": ["layouts/src/value/cbor/serde_cbor.rs: From<TypedValue<R>> for serde_cbor::Value"]}
{"id": "C49", "title": "CBOR tags come from the layouts", "statement": "In the tagged CBOR encoding every value is wrapped in the tag declared by its layout with the cbor:tag property, tags are the only difference with the plain encoding, and without tags both encodings are equal; invalid tag declarations are reported.", "quantifier": "every typed tree, every assignment of tags to layouts, every literal value of the property", "why_tests_cant": "All nestings and all tag assignments.", "anchors": ["layouts/src/value/cbor/mod.rs: get_layout_tag", "layouts/src/value/cbor/serde_cbor.rs: try_into_tagged_serde_cbor_with"]}
{"id": "C50", "title": "Serde round trip of trees", "statement": "Serializing a tree with Serde and deserializing it gives the same tree.", "quantifier": "every tree", "why_tests_cant": "All nestings, all numbers.", "anchors": ["layouts/src/value/ser.rs", "layouts/src/value/de.rs", "layouts/src/value/mod.rs: Number::as_native"]}
{"id": "C51", "title": "Unnamed layouts never clash", "statement": "Layouts defined without an identifier get distinct generated identifiers: adding a definition without any explicit identifier to a builder never reports a redefinition and never replaces a layout.", "quantifier": "every builder state reached by building definitions, and every definition without explicit identifiers", "why_tests_cant": "The clash depends on how many layouts were generated before, in this call and in earlier ones.", "anchors": ["layouts/src/abs/syntax/layout/mod.rs: Layout::build, build_with_context, Build for Layout", "layouts/src/abs/mod.rs: Builder::insert"]}
{"id": "C52", "title": "Compact IRIs expand with the prefixes and base IRI in force", "statement": "A compact IRI in a layout definition stands for itself, for prefix ++ suffix when its scheme is a declared prefix, or for its resolution against the base IRI; base and prefixes declared by a layout are expanded in the enclosing scope and are in force in that layout and the layouts nested in it.", "quantifier": "every compact IRI, header and enclosing scope", "why_tests_cant": "Shadowing and inheritance of prefixes through arbitrary nesting.", "anchors": ["layouts/src/abs/syntax/pattern/compact_iri.rs: CompactIri::resolve", "layouts/src/abs/syntax/build.rs: Scope::with_header"]}
{"id": "C53", "title": "Compiling a layout definition ends with a layout or an error", "statement": "Building any syntactically correct layout definition returns the layout or a BuildError; it does not panic.", "quantifier": "every layout definition and builder state", "why_tests_cant": "Ranges over all definitions.", "anchors": ["layouts/src/abs/syntax/layout/*.rs: Build impls"]}
{"id": "C54", "title": "Reading a layout definition ends with a definition or an error", "statement": "Parsing any JSON document as a layout definition terminates and returns the definition or a syntax error; it does not panic.", "quantifier": "every JSON document", "why_tests_cant": "Documents of every shape and depth.", "anchors": ["layouts/src/abs/syntax/layout/mod.rs: TryFromJson for Layout", "layouts/src/value/mod.rs: TryFromJson for Value"]}
{"id": "C55", "title": "Reading a regular expression ends with an expression or an error", "statement": "RegExp::parse terminates on every string and returns an expression or a ParseError; the unwraps on its stack never panic.", "quantifier": "every string", "why_tests_cant": "All nestings of groups, alternatives, character sets and escapes.", "anchors": ["layouts/src/abs/regexp.rs: RegExp::parse, parse_charset"]}
{"id": "C56", "title": "A serialized layout definition reads back as the same definition", "statement": "Serializing a layout definition and parsing the result gives an equal definition.", "quantifier": "every layout definition (value of the type abs::syntax::Layout)", "why_tests_cant": "Every combination of defaults that the serializer skips with the defaults that the parser assumes, at any nesting.", "anchors": ["layouts/src/abs/syntax/**: derived Serialize, TryFromJson"]}
{"id": "C57", "title": "The order of members in a layout definition is irrelevant", "statement": "Two JSON documents that differ only in the order of the members of their objects, at any depth, are parsed to equal layout definitions, or neither is accepted.", "quantifier": "every JSON document and every reordering of the members of objects without duplicates", "why_tests_cant": "All permutations at all depths; the parser looks members up one after the other and keeps track of those it used by index.", "anchors": ["layouts/src/abs/syntax/**: TryFromJson", "layouts/src/abs/syntax/mod.rs: get_entry, check_type, ObjectUnusedEntries"]}
{"id": "C58", "title": "Loading several layout files never replaces a layout", "statement": "The files given to the command line tool are all loaded provided that no layout identifier is defined by two of them; otherwise the tool reports a redefinition for one of the files. Layouts without explicit identifiers never clash, whatever file they come from.", "quantifier": "every sequence of layout files and included files", "why_tests_cant": "All sequences of documents; depends on the identifier generator shared between files and on the per-file builders.", "anchors": ["src/main.rs: run, load_layout"]}
{"id": "C59", "title": "Unrelated layouts do not influence (de)hydration", "statement": "The result of hydrating or dehydrating with a layout depends only on the layouts that can be reached from it through dependencies; completing a registry with another one changes no result of the layouts whose dependencies are all defined.", "quantifier": "every registry, layout reference, dataset, value and other registry", "why_tests_cant": "All registries and all executions.", "anchors": ["layouts/src/distill/hy/mod.rs: hydrate_with", "layouts/src/distill/de/mod.rs: dehydrate_with", "layouts/src/lib.rs: LayoutRegistry::with"]}
{"id": "C60", "title": "The prelude defines the documented layouts", "statement": "Building the prelude always succeeds and gives, under each documented IRI, the layout of the corresponding datatype; the sized integer layouts only accept integers of their range.", "quantifier": "every vocabulary in which the IRIs of the prelude are valid, and every number", "why_tests_cant": "All vocabularies and all numbers.", "anchors": ["layouts/src/prelude.rs: Prelude::build", "layouts/prelude/*.json"]}
{"id": "C61", "title": "Derived deserialization reads what hydration reads", "statement": "For a Rust type with #[derive(DeserializeLd)], deserializing a value from a dataset succeeds exactly when hydrating the same dataset and inputs with the layout of the type does, and the two results are the same tree (unordered lists may be enumerated in different orders). Deserialization never panics.", "quantifier": "every layout the macros accept, every dataset, inputs, graph and interpretation", "why_tests_cant": "All layouts, datasets and interpretations; the macro expansion and the interpreter are two independent implementations.", "anchors": ["generators/rust/treeldr-rs-macros/src/generate/de.rs: generate", "generators/rust/treeldr-rs/src/de/mod.rs: DeserializeLd, select_inputs, select_graph", "generators/rust/treeldr-rs/src/datatypes.rs", "layouts/src/distill/hy/mod.rs: hydrate"]}
{"id": "C62", "title": "Derived serialization writes what dehydration writes", "statement": "For a Rust type with #[derive(SerializeLd)], serializing any value of the type succeeds, and writes the quads and names the resources that dehydrating the corresponding tree with the layout of the type would.", "quantifier": "every layout the macros accept, every value of the type, inputs, graph and state of the interpretation", "why_tests_cant": "All layouts and values; the macro expansion and the interpreter are two independent implementations.", "anchors": ["generators/rust/treeldr-rs-macros/src/generate/ser.rs: generate", "generators/rust/treeldr-rs/src/ser/environment.rs: Environment", "generators/rust/treeldr-rs/src/datatypes.rs", "layouts/src/distill/de/mod.rs: dehydrate"]}
{"id": "C63", "title": "Derived types round trip through RDF", "statement": "If a value of a derived type is serialized into an empty dataset for new inputs, then deserializing from that dataset with the same inputs gives the value back, up to the order and repetitions of the items of unordered lists. The value is also read back, up to the same, from any dataset that includes what was written, in which nothing is ambiguous and that says nothing else of the value, whatever the patterns and the number of inputs; without unordered lists, it is the value itself.", "quantifier": "every derived type, every value, every choice of blank node names, every dataset that includes what was written", "why_tests_cant": "All types and values.", "anchors": ["generators/rust/treeldr-rs-macros/src/generate/ser.rs: generate", "generators/rust/treeldr-rs-macros/src/generate/de.rs: generate", "generators/rust/treeldr-rs/src/ser/mod.rs: SerializeLd", "generators/rust/treeldr-rs/src/de/mod.rs: DeserializeLd"]}
{"id": "C64", "title": "Attributes given to the derive macros are combined without loss or contradiction", "statement": "The #[tldr(..)] attributes of a type, field, variant or item may be split over several attribute lists, in any order: the whole is accepted exactly when the parts are accepted and do not give two different values to the same attribute, and then means what the parts mean together. Only a prefix may be redefined; the last definition wins.", "quantifier": "every list of attributes (any tokens) and every way to split it", "why_tests_cant": "All token sequences and all splits.", "anchors": ["generators/rust/treeldr-rs-macros/src/parse.rs: TypeAttributes::parse, ComponentAttributes::parse, replace"]}
{"id": "C65", "title": "The macros generate one type per layout, and references name them", "statement": "tldr!/tldr_include! generate, for the layout files given, exactly one Rust type per layout defined in them, nested definitions included, with distinct names, and wherever a type refers to a layout of these files it names the type of that layout. An invalid file is an error. The tool tldr-rs prints the type of the requested layout, or of the only layout given, and nothing else.", "quantifier": "every list of layout files, every choice of naming options", "why_tests_cant": "All sets of definitions and names.", "anchors": ["generators/rust/treeldr-rs-macros/src/lib.rs: Attribute::build, generate_layouts, tldr, tldr_include", "generators/rust/generator/src/lib.rs: layout_ident, layout_ref, generate", "generators/rust/generator/src/utils.rs: ident_from_iri, PascalCase", "generators/rust/generator/src/bin/main.rs: main"]}
{"id": "C66", "title": "The tool and the macros read layout files alike", "statement": "A JSON document is accepted as a layout definition by the treeldr tool exactly when the Rust macros and tldr-rs accept it, and both read the same definition from it.", "quantifier": "every JSON document", "why_tests_cant": "All documents; two independent parsers.", "anchors": ["layouts/src/abs/syntax/layout/mod.rs: TryFromJson for Layout, Deserialize for Layout", "layouts/src/abs/syntax/pattern/literal.rs: LiteralTypeIri", "layouts/src/value/de.rs: Deserialize for Value", "generators/rust/treeldr-rs-macros/src/lib.rs: Attribute::build", "src/main.rs: load"]}
{"id": "C67", "title": "Hydration does not depend on the names of resources", "statement": "Renaming the resources (blank nodes or terms of an interpretation) of the dataset, the inputs and the current graph, without merging two of them, keeping their IRIs and literal values and leaving alone the constants of the layouts, changes nothing to hydration: the same tree, the same error, or the same failure.", "quantifier": "every registry, dataset, interpretation, input and injective renaming", "why_tests_cant": "All datasets and all renamings.", "anchors": ["layouts/src/distill/hy/mod.rs: hydrate", "layouts/src/matching.rs: Matching", "layouts/src/distill/hy/data.rs", "layouts/src/distill/hy/list.rs"]}
{"id": "C68", "title": "Data that no layout looks at does not affect hydration", "statement": "Adding quads to a dataset, anywhere, does not change the outcome of hydration when every pattern of every layout ignores them: a constant of the pattern (such as its predicate) differs from the quad, or the pattern starts from a resource already known and the subject of the quad is used nowhere else.", "quantifier": "every registry, dataset, set of added quads and input", "why_tests_cant": "All datasets and all additions.", "anchors": ["layouts/src/distill/hy/mod.rs: hydrate", "layouts/src/matching.rs: Matching", "layouts/src/utils.rs: with_default_graph"]}
{"id": "C69", "title": "The names of blank nodes produced by dehydration do not matter", "statement": "Dehydrating the same tree with another generator of fresh blank nodes, or drawing the identifiers in another order, fails in the same way or yields the same dataset and subjects up to a renaming of blank nodes that merges nothing and leaves alone IRIs, literals, constants of the layouts and names of inputs; hydration then gives the same tree. The names generated by default are fresh for every compiled layout.", "quantifier": "every registry, tree, layout, pair of generators and orders", "why_tests_cant": "All trees, layouts and generators; hash order of resources.", "anchors": ["layouts/src/distill/de/mod.rs: dehydrate, Options, RdfContext", "layouts/src/abs/syntax/pattern/mod.rs: Pattern"]}
{"id": "C70", "title": "Compact layout definitions round-trip end to end", "statement": "For layout definitions in the usual compact form (one input; records whose fields are each given by a property, an identifier or a set; RDF lists; plain literals; sums whose variants are literals of different types or records and constants that state different triples; nested definitions, references and prefixes allowed), once compiled, every tree that conforms to them can be dehydrated with the default options, and the dataset hydrates to the same tree, up to the order of sets. The layouts referred to must be defined, ordered lists not empty, identifiers not repeated, and values of sums must be rejected at their first node by the other variants.", "quantifier": "every set of compact definitions, every conforming tree, every order of quads", "why_tests_cant": "All definitions, with any nesting and prefixes, and all trees.", "anchors": ["layouts/src/abs/syntax/layout/mod.rs: Layout, Build", "layouts/src/abs/syntax/layout/product.rs: Field", "layouts/src/distill/de/mod.rs: dehydrate", "layouts/src/distill/hy/mod.rs: hydrate"]}
{"id": "C71", "title": "JSON documents round-trip through the command line tool", "statement": "With layout files in the usual compact form (see C70), and the prelude or not, `tldr dehydrate` turns every JSON document that conforms to the selected layout into a dataset, and `tldr hydrate`, given this dataset and the right subject, prints a JSON document that stands for the same tree, up to the order of sets.", "quantifier": "every set of compact layout files and included files, every conforming JSON document", "why_tests_cant": "All layout files, all documents, all orders of quads in the dataset.", "anchors": ["src/main.rs: run, load_layout, Command", "src/format/tree.rs: TreeFormat", "layouts/src/prelude.rs: Prelude", "layouts/src/value/mod.rs: TryFrom<Value>, From<json_syntax::Value>"]}
{"id": "C72", "title": "The Rust types of the built-in layouts exist and fit", "statement": "In generated Rust code, a layout whose only IRI is that of a layout of the prelude is referred to by a fixed Rust type. The runtime library implements serialization and deserialization for this type, with the very layout of the prelude; and for an integer layout, the Rust type has exactly the range of the XML Schema datatype.", "quantifier": "every layout of the prelude, every naming and module table of the generator", "why_tests_cant": "The table of types of the generator, the prelude and the runtime library are in three crates; no test compiles generated code for all of them, under all naming tables.", "anchors": ["generators/rust/generator/src/lib.rs: layout_ref", "layouts/src/preset.rs: PresetLayout", "generators/rust/treeldr-rs/src/datatypes.rs", "layouts/src/prelude.rs: Prelude"]}
{"id": "C73", "title": "Deriving implementations for a Rust type never panics, and uses the declared types", "statement": "Deriving SerializeLd or DeserializeLd for a Rust type, with any attributes, gives either a compilation error or code, and never panics. The code reads and writes each field, variant and item with the type it is declared with (or the content of an Option), and all the fields and variants are covered. The names of variables in patterns are the blank node labels of N-Triples without dots.", "quantifier": "every type definition and attribute list, both macros, every IRI library that meets the stated assumptions", "why_tests_cant": "The tests derive implementations for a handful of types; attributes are token streams of any shape, and the macros contain several unwraps and todos whose reachability depends on all of them.", "anchors": ["generators/rust/treeldr-rs-macros/src/parse.rs", "generators/rust/treeldr-rs-macros/src/generate/de.rs", "generators/rust/treeldr-rs-macros/src/generate/ser.rs", "generators/rust/treeldr-rs-macros/src/generate/mod.rs", "layouts/src/abs/syntax/pattern/variable.rs"]}
{"id": "C74", "title": "A Rust type with attributes and the corresponding JSON document define the same layout", "statement": "A layout can be declared as a Rust type with tldr attributes, or as a JSON document. With the same settings (base, prefixes, identifier, inputs, introduced variables, datasets, resources, datatypes, properties, graphs, kinds of layouts), both are read as the same abstract layout, or both are rejected; what is left out has the same default in both. A field is required if and only if its type is not an Option; the layouts of the contents are those of the declared types, in order.", "quantifier": "every declaration (eleven kinds of layouts, any fields, variants and items, any texts, valid or not), every IRI library that meets the stated assumptions", "why_tests_cant": "The attributes are parsed by hand-written code in the macro crate, the documents by other hand-written code in the layouts crate, each with its own defaults; the tests compare neither.", "anchors": ["generators/rust/treeldr-rs-macros/src/parse.rs: parse, TypeAttributes::parse, ComponentAttributes::parse", "layouts/src/abs/syntax/layout/mod.rs: Layout", "layouts/src/abs/syntax/mod.rs: ValueFormat, Pattern, Dataset"]}
{"id": "C75", "title": "Format names and terms on the command line", "statement": "The formats of datasets are named application/n-quads, n-quads, nquads or nq; those of trees application/json or json, and application/cbor or cbor. Every other name is rejected with an error, and no name makes the tool panic. Formats are displayed with a name that is accepted. A term on the command line is the blank node or the IRI that is written, and anything else is rejected.", "quantifier": "every string", "why_tests_cant": "The lists of accepted names and the function that interprets them are written separately, and the latter is unwrapped; a name accepted by one and not by the other would panic.", "anchors": ["src/format/rdf.rs RDFFormat::{parser,new,as_str}", "src/format/tree.rs TreeFormat::{parser,new,as_str}", "src/rdf.rs parse_term"]}
{"id": "C76", "title": "Converting a tree or a dataset does not change it", "statement": "tldr convert reads a tree in JSON or CBOR and writes it in JSON or CBOR: reading the output gives the same tree (for CBOR, provided the numbers are integers of 64 bits or floating point numbers). The conversion succeeds for every tree that the output format can represent. A dataset converted is the same set of quads.", "quantifier": "every input document, every pair of formats, every floating point implementation", "why_tests_cant": "Trees are unbounded, and numbers are rationals that go through decimal, integer and floating point representations.", "anchors": ["src/main.rs Convert::run", "src/format/tree.rs TreeFormat::{load,write_untyped}", "src/format/rdf.rs RDFFormat::{load,write}", "layouts/src/value/ser.rs", "layouts/src/value/de.rs", "layouts/src/value/mod.rs"]}
{"id": "C77", "title": "What the command line tool prints or accepts conforms to the layout", "statement": "Whatever the layout files are, if tldr hydrate prints a document, this document stands for a tree that conforms to the layout that was asked for, and in JSON this tree is read back from the document. If tldr dehydrate prints a dataset, the tree that was read conforms to the layout. Encoding a hydrated tree in CBOR finds the layouts of all parts of the tree, and ends with a document or an error about a tag.", "quantifier": "every list of layout files and includes, with or without the prelude, every input document, every choice of formats, layout and subjects", "why_tests_cant": "It combines the loading of arbitrary layout definitions, hydration, and encoding; each part of the output must be justified by a layout found in the files.", "anchors": ["src/main.rs Command::run", "src/format/tree.rs TreeFormat::write_typed", "layouts/src/value/cbor/serde_cbor.rs get_layout_tag", "layouts/src/hydrate/mod.rs hydrate", "layouts/src/dehydrate/mod.rs dehydrate"]}
{"id": "C78", "title": "A serialized layout definition is deserialized to the same definition", "statement": "Serializing a layout definition with serde_json and deserializing the result with serde_json, as applications that store definitions and the Rust macros do, gives an equal definition.", "quantifier": "every layout definition (value of the type abs::syntax::Layout)", "why_tests_cant": "Layout definitions nest without bound, the types are untagged (each is tried in turn on a buffered copy of the document), and every default that is skipped must be the default that is assumed.", "anchors": ["layouts/src/abs/syntax/**: derived Serialize, Deserialize", "layouts/src/value/ser.rs", "layouts/src/value/de.rs"]}
{"id": "C79", "title": "Writing back a tree that was read writes nothing that was not read", "statement": "When a tree is hydrated from a dataset and dehydrated with the same layouts, every quad of the resulting dataset is a quad of the original dataset, up to the names generated for the nodes of the tree (each of which stands for one term of the original dataset) and the canonical form of booleans and numbers; the inputs returned stand for the inputs that were read. When literals are canonical, dehydration accepts the tree.", "quantifier": "every registry of layouts, dataset, inputs, tree hydrated from them and generator of names", "why_tests_cant": "Layouts nest without bound, share nodes and variables, and the dataset may contain anything besides what the layouts look at; a single quad out of place in some combination would add false statements to the data of the user.", "anchors": ["layouts/src/distill/hy/mod.rs: hydrate, hydrate_with", "layouts/src/distill/de/mod.rs: dehydrate, dehydrate_with"]}
{"id": "C80", "title": "Loading, saving and loading again gives the same tree", "statement": "When a tree is hydrated from a dataset, dehydrated with the same layouts, and hydrated again from the resulting dataset and inputs, the last hydration returns, and the tree it returns is the first one. In particular, if every node of the tree carries its identifier, then what is saved is a part of the original dataset, and it is enough to load the same tree.", "quantifier": "every registry of layouts, dataset, inputs, tree hydrated from them and generator of names", "why_tests_cant": "What is not part of the tree (other quads of the dataset) is dropped, blank nodes are renamed, literals become canonical and nodes may be shared: the second reading searches a different dataset, and must find exactly the same matches at every level of every tree.", "anchors": ["layouts/src/distill/hy/mod.rs: hydrate, hydrate_with", "layouts/src/distill/de/mod.rs: dehydrate, dehydrate_with"]}
{"id": "C81", "title": "Documents stored in one dataset do not disturb each other", "statement": "Dehydrate any number of trees, each with its own layouts and options, and put the resulting datasets together. Provided the trees describe different things (no identifier is given to a node of two of them, and their blank nodes have different names), hydrating from the whole the subjects of any one of them gives back its tree. More generally, a tree is read back from every dataset that contains what was written and whose default graph says nothing else about the nodes of the tree, whatever it says of other resources or in named graphs.", "quantifier": "every family of trees, layouts and options, and every dataset that contains what was written", "why_tests_cant": "Hydration searches the whole dataset for matches of the patterns of the layouts at every level of the tree; each additional quad of any other document could make a pattern ambiguous or add items to a list, at any depth.", "anchors": ["layouts/src/distill/de/mod.rs: dehydrate, dehydrate_with", "layouts/src/distill/hy/mod.rs: hydrate, hydrate_with", "layouts/src/matching.rs: Matching"]}
{"id": "C82", "title": "Different trees are written differently", "statement": "If two trees are dehydrated with the same layout, and the resulting datasets and subjects are the same up to the names of blank nodes and the order of quads, then the trees are equal, up to the order and repetition of the items of unordered lists.", "quantifier": "every registry of layouts, pair of trees, pair of options and renaming of blank nodes", "why_tests_cant": "Isomorphism of datasets allows any renaming of blank nodes, and two trees of any shape and size, whose parts are named and ordered differently, must be told apart by it.", "anchors": ["layouts/src/distill/de/mod.rs: dehydrate, dehydrate_with", "layouts/src/distill/hy/mod.rs: hydrate"]}
{"id": "C83", "title": "Record layouts put together read what the parts read", "statement": "A record layout that has the fields and the patterns of several record layouts hydrates a resource exactly when each of them does, and the record it returns has the members of the records they return, with the same values, and no others. A record layout with only some of the fields of another one hydrates every resource the other one does, and returns the corresponding members.", "quantifier": "every registry, set of record layouts, dataset, graph and inputs", "why_tests_cant": "Fields are read one after the other from a shared substitution and the loop stops at the first problem; whether a field interferes with another one has to be excluded for all layouts and datasets.", "anchors": ["layouts/src/distill/hy/mod.rs: hydrate_with_ref (Layout::Product)", "layouts/examples/combine.rs"]}
{"id": "C84", "title": "Documents about the same subject can be put together", "statement": "Dehydrate several records, with layouts that use different properties, and put the datasets together, possibly with what is said with yet other properties. Each record that can be read back on its own is still read back from the whole with its layout, and if the records are about the same subjects, a record layout with the fields of all of them reads the members of all the records and nothing else. More generally, what a dataset says about the nodes of a tree with properties that the layouts do not use does not prevent reading the tree back.", "quantifier": "every family of record layouts and trees, and every dataset that contains what was written", "why_tests_cant": "Every pattern of every layout, at every depth, is matched against the quads of all the documents.", "anchors": ["layouts/src/distill/de/mod.rs: dehydrate, Options::with_generator", "layouts/src/distill/hy/mod.rs: hydrate", "layouts/examples/combine.rs"]}
{"id": "C85", "title": "What is read back has everything that was written", "statement": "Write a tree with a layout, possibly into a dataset that contains other quads, and read the dataset with the same layout from the subjects returned. If reading succeeds, the tree read has everything that was written: the same literals and identifiers, every member of every record, every item of every set, list and tuple (at its place for lists and tuples; lists are complete when the resources that end lists are used for nothing else), and the same variants where the patterns of the variants tell them apart. Nothing written is lost or replaced, except that anything may be read for an empty list, of which nothing is written. If moreover the layouts have no sets, no optional fields and no `always` layouts, and no list is empty, the tree read is the tree written.", "quantifier": "every layout (any number of inputs and introduced variables, any patterns, no named graph in value formats), every tree, every dataset that contains what was written", "why_tests_cant": "Other quads may make any pattern ambiguous or add matches anywhere; that reading then fails rather than loses something is a statement about all datasets.", "anchors": ["layouts/src/distill/de/mod.rs: dehydrate, Options", "layouts/src/distill/hy/mod.rs: hydrate", "layouts/src/distill/hy/data.rs: hydrate_data"]}
{"id": "C86", "title": "Generated types name external layouts in the module declared for the longest prefix of their IRI", "statement": "In a module with the attribute `#[tldr(\"file\")]`, an item `#[tldr(\"prefix\")] use path;` declares a module for all layouts whose IRI starts with the prefix. In every type generated, a layout that is not one of the presets is named in the module declared for the longest prefix of its IRI; without such a declaration, in the module itself. The order of the items does not matter. The macro accepts exactly the modules whose items are `use` items with no other attribute, and a name if they have a prefix; it then generates one type for each layout of the files.", "quantifier": "every list of files, every list of items of the module, every layout reference", "why_tests_cant": "The choice is the last match in the order of a map of all the prefixes declared; that it is the longest one depends on the order of strings, for all sets of prefixes and all IRIs.", "anchors": ["generators/rust/treeldr-rs-macros/src/lib.rs: tldr, use_tree_ident, generate_layouts", "generators/rust/generator/src/lib.rs: Options::use_module, Options::layout_ref"]}
{"id": "C87", "title": "Reading in a graph is reading that graph alone", "statement": "With layouts that name no graph, hydrating in a graph of a dataset, the default one or a named one, gives what hydrating that graph alone gives, as a dataset of its own: the same tree, the same error, the same panic. Layouts that name one graph in all their patterns read that graph in the same way, whatever the current graph, and dehydration with them writes what it writes without the graph, moved to the graph.", "quantifier": "every dataset, graph, interpretation, set of layouts that name no graph, layout and inputs; every tree", "why_tests_cant": "The current graph goes through every pattern of every layout and through every recursive call; one pattern that is not placed in the graph makes hydration see another graph of some dataset.", "anchors": ["layouts/src/distill/hy/mod.rs: hydrate_with_ref, select_graph", "layouts/src/utils/mod.rs: QuadsExt::with_default_graph", "layouts/src/matching.rs: Matching::next", "layouts/src/distill/de/mod.rs: dehydrate_with_ref, Environment::instantiate_quad"]}
{"id": "C88", "title": "Documents stored each in a graph of its own are read back", "statement": "Dehydrate any number of trees, with any layouts and options, and store each dataset in a named graph of its own. Each tree is read back by hydrating in its graph, even if the documents describe the same things, or have the same blank nodes, as they have with the default options. Trees that are dehydrated with layouts that name one graph are written to that graph, and are read back with these layouts.", "quantifier": "every family of documents, every assignment of graphs, every dataset that contains them", "why_tests_cant": "It is a statement about all trees, all layouts and all sets of documents, whose blank nodes may coincide in any way.", "anchors": ["layouts/src/distill/hy/mod.rs: hydrate_with", "layouts/src/distill/de/mod.rs: dehydrate, dehydrate_with"]}
{"id": "C89", "title": "The diagnostic of a rejected layout definition is about the place it shows", "statement": "When the tool rejects a layout definition, its diagnostic has a position in the file, and further positions for the hints. All of them exist in the file, so reporting an error never panics. What the error says is true of what is at its position: the value there has a kind other than the expected ones; the object there does not have the missing entry; the key there, and the one of the hint, are the same key twice in one object; the entry there is not one of those the object may have; the text there is not a valid type, IRI, pattern or regular expression; the number there is not an integer, or is too large. The message names it. Following positions does not change what is accepted.", "quantifier": "every JSON document", "why_tests_cant": "Positions are computed by adding up the sizes of the fragments skipped at every level; one wrong offset shows only in documents of some shape, as a diagnostic about another place or as a panic.", "anchors": ["layouts/src/abs/syntax/mod.rs: Error::position, Error::hints, ErrorHint, ObjectUnusedEntries, get_entry, require_entry, require_type, check_type", "layouts/src/abs/syntax/dataset.rs: Pattern, Dataset", "src/main.rs: Error::into_diagnostic"]}
{"id": "C90", "title": "What was written is read back, unless the data is ambiguous", "statement": "A tree is dehydrated with a layout, and the quads are added to any dataset. Hydration with the same layout, from the subjects returned, gives the tree back, whatever else the dataset says, as long as nothing is ambiguous (wherever reading may come to, the patterns have one match at most, except those of the items of sets) and the dataset says nothing more about the tree: it has no match for the optional fields that the tree does not have, and every item found for a set is one of the items of the tree. The items of sets are compared as sets; without sets the tree is the same. For the first condition it is enough that the patterns can be followed from the inputs along properties that have one value at most for each subject. The quads may also be stored in a named graph and be read from there, if the layouts name no graph.", "quantifier": "every well-formed layout of the default graph, with any patterns, number of inputs and introduced variables (variants introduce none, and are told apart by their patterns); every tree without empty lists (empty sets are allowed) and without parts read with `always` layouts; every dataset that contains the quads written", "why_tests_cant": "It is about all layouts, all trees and all other data. One more triple anywhere may make a pattern match twice, and hydration then fails.", "anchors": ["layouts/src/distill/de/mod.rs: dehydrate, dehydrate_with", "layouts/src/distill/hy/mod.rs: hydrate, hydrate_with", "layouts/src/matching.rs: Matching"]}
{"id": "C91", "title": "What tldr hydrate prints is what the data means", "statement": "If `tldr hydrate` prints a tree, then the data has exactly one meaning for the layout and the subjects, and the output stands for it. If it reports an error of hydration, the data has no meaning. If the data has a meaning that JSON can express (and the variants of sums are told apart by their patterns), it is printed.", "quantifier": "every list of layout files (with one input per literal layout), dataset, layout and subjects", "why_tests_cant": "All layout files, datasets and subjects; uniqueness ranges over all trees.", "anchors": ["src/main.rs: Command::run", "src/format/tree.rs", "layouts/src/distill/hy/mod.rs: hydrate_with"]}
{"id": "C92", "title": "What tldr dehydrate writes, tldr hydrate reads, unless the data is ambiguous", "statement": "If `tldr dehydrate` turns a JSON document into a dataset, then `tldr hydrate`, given the same layout files, the subjects of the document and any dataset that contains what was written, prints a JSON document that stands for the same tree, up to the order and repetition of the items of sets, as long as nothing is ambiguous in the dataset (wherever reading may come to, the patterns have one match at most, those of the items of sets excepted) and the dataset says nothing but the tree: it has no match for the optional fields that the tree does not have, and no item for the sets that the tree does not have.", "quantifier": "every set of layout files whose layouts select no named graph, with any patterns, inputs and introduced variables; every JSON document accepted, with numbers greater than -1; every larger dataset", "why_tests_cant": "Layout files, documents and the other data of the dataset are arbitrary.", "anchors": ["src/main.rs: run, Command::run", "layouts/src/distill/de/mod.rs: dehydrate", "layouts/src/distill/hy/mod.rs: hydrate"]}
{"id": "C93", "title": "What an error of hydration says is true of the data", "statement": "When `hydrate` returns an error, what the error says is true of the layout, the inputs and the graph it was given, or of a component (a field or an item, at any depth): the layout named does not exist; the layout has the expected number of inputs, and was given the found number; the layout is the one without values; the patterns of the named layout, the named required field, the named node of a list or the named item of a tuple have no match in the dataset (missing data), or those of the named layout, field, variant, node or item have several matches (ambiguous data); the resource has no literal of the type of the layout; or a literal of a layout of numbers has the named type, which is not a type of numbers. An error that occurs inside a variant of a sum is never reported. Conversely, if anything of this is true of a component, hydration does not return a value; and a hydration that ends without panic returns a value exactly if nothing of this is true of any component.", "quantifier": "every registry of closed layouts, dataset, interpretation, layout, inputs, graph and error; without exception for layouts whose variants declare no variables", "why_tests_cant": "The component, its depth and the data around it are arbitrary.", "anchors": ["layouts/src/distill/hy/mod.rs: Error, DataFragment, hydrate_with, hydrate_with_ref", "layouts/src/distill/hy/data.rs: hydrate_data", "layouts/src/matching.rs: Matching::into_unique, into_required_unique"]}
{"id": "C94", "title": "What an error of dehydration says is true of the tree", "statement": "When `dehydrate` returns an error, what the error says is true of the tree and the layout it was given, or of a component (a field or an item, at any depth): the named layout does not exist; the layout has the expected number of inputs and was given the found number; the tree is not one for the layout (another kind of value, a text that is not an IRI, a key that is not the one of a field, a tuple of another length, or every variant of a sum rejects it); the named required key of the record of the named layout is missing; or several variants of a sum accept the tree. The only other error is that several terms were assigned to one resource; then that is true, and the tree is accepted. Conversely, if anything of this is true, nothing is written. Which trees are accepted is decided by the tree and the layouts alone, and not by the dataset, the graph, the inputs or what was written before: accepted trees are exactly those of which no error could say something true.", "quantifier": "every registry of closed layouts with distinct keys, tree, layout, options and error; for the characterisation of success, also every state, graph and inputs, where sums are not cyclic and the literals are implemented", "why_tests_cant": "The component, its depth, the nesting of sums and what was written before are arbitrary.", "anchors": ["layouts/src/distill/de/mod.rs: Error, dehydrate, dehydrate_with_ref, dehydrate_sub_value"]}
{"id": "C95", "title": "What an error of derived deserialization says is true of the data", "statement": "When the code derived by `#[derive(DeserializeLd)]` returns an error, what the error says is true of the type, the inputs and the graph it was given, or of a part of the value (a field, a variant, an item, at any depth): data is missing (the patterns of the layout, of a node of a list or of an item of a tuple have no match, or no variant has a match, or a resource of the layout is unknown to the interpretation, or a `String` is expected where there is no string); the named field, which is not optional, has no match; data is ambiguous (patterns other than those of the elements of a set have several matches, or two variants have a match); the resource has no identifier, or several; it has no literal; none of its literals is a value of the type, or several are; a literal of the datatype of an integer type is not an integer within the bounds of the type. Conversely, if anything of this is true of a part, no value is returned; and derived code that ends, for layouts all variables of which are bound, returns a value exactly if nothing of this is true of any part.", "quantifier": "every registry of closed, well-typed layouts, types of the runtime, dataset, interpretation, type, inputs, graph and error", "why_tests_cant": "The part, its depth and the data around it are arbitrary.", "anchors": ["generators/rust/treeldr-rs-macros/src/generate/de.rs: generate", "generators/rust/treeldr-rs/src/de/mod.rs: Error, select_inputs, select_graph", "generators/rust/treeldr-rs/src/datatypes.rs", "generators/rust/treeldr-rs/src/de/matching.rs: Matching::into_unique, into_required_unique"]}
{"id": "C96", "title": "What layouts do not speak about has no effect on reading", "statement": "Two datasets that differ only in quads that match no pattern of a layout, nor of the layouts it refers to, are read in the same way with this layout: the same tree, the same error, the same panic. In particular, when the properties of the patterns are fixed, whatever a dataset says with other properties may be left out. The same holds for the types derived from the layouts.", "quantifier": "every pair of datasets, set of layouts, layout, inputs, current graph and interpretation", "why_tests_cant": "A test compares a few datasets; the search for matches goes through all the quads, and its outcome, ambiguities included, must not depend on any quad that no pattern can match.", "anchors": ["layouts/src/matching.rs: Matching", "layouts/src/distill/hy/mod.rs: hydrate_with_ref", "generators/rust/treeldr-rs/src/de/matching.rs: Matching", "generators/rust/treeldr-rs-macros/src/generate/de.rs"]}
{"id": "C97", "title": "Derived deserialization treats the dataset as a set", "statement": "Reading a value of a type derived from a layout gives, for two datasets with the same quads in different orders, a value in both cases or an error in both cases; and the two values differ at most by the order of the items of unordered lists. For types without unordered lists, the values are equal.", "quantifier": "every pair of orders of the quads of a dataset, set of layouts, layout, inputs, current graph and interpretation", "why_tests_cant": "A test reads a dataset in the order its map iterates over it; the derived code searches for matches, tries variants and fields one after the other and stops at the first error, in this order, and none of this may decide whether a value is read.", "anchors": ["generators/rust/treeldr-rs-macros/src/generate/de.rs", "generators/rust/treeldr-rs/src/de/matching.rs: Matching"]}
{"id": "C98", "title": "Derived deserialization does not depend on the names of resources", "statement": "Renaming the resources of the dataset, of the inputs and the current graph, without merging two of them, keeping their IRIs, blank node identifiers and literal values and leaving alone the constants of the layouts, changes nothing to what code derived from layouts reads: the same value, the same error, or the same failure.", "quantifier": "every set of layouts, dataset, interpretation, inputs, current graph and injective renaming", "why_tests_cant": "A test uses a few names; the derived code compares resources while it searches for matches and follows lists, and no choice of names may change the outcome.", "anchors": ["generators/rust/treeldr-rs-macros/src/generate/de.rs", "generators/rust/treeldr-rs/src/de/matching.rs: Matching", "generators/rust/treeldr-rs/src/datatypes.rs"]}
{"id": "C99", "title": "The text of a tree determines the tree", "statement": "Two trees that are displayed as the same text are the same tree, whatever numbers, bytes, strings and keys they are made of; the same holds for literals and numbers. Inside a longer text, a displayed tree followed by a delimiter is displayed by no other tree.", "quantifier": "every pair of trees, and every text that follows them", "why_tests_cant": "A test displays a few trees; strings may contain any character, delimiters and quotation marks included, keys may be any tree, and no two of infinitely many trees may be confused.", "anchors": ["layouts/src/value/mod.rs: impl Display for Number", "layouts/src/value/mod.rs: impl Display for Literal", "layouts/src/value/mod.rs: impl Display for Value"]}
{"id": "C100", "title": "The message of an error says which error it is", "statement": "Two failures of hydration have the same message exactly if they are the same kind of failure about the same key, variant, numbers of inputs or undefined layout; two failures of dehydration with the same message are the same kind of failure about the same key, variable, numbers of inputs or undefined layout. In particular, if the message is that the required key k is missing, then the data, or the tree, does lack what the record requires for k.", "quantifier": "every pair of errors, whatever trees their keys are and whatever strings name the variants and layouts; every layout, dataset and tree", "why_tests_cant": "A test compares a few messages; names and keys may contain any text, parts of other messages included.", "anchors": ["layouts/src/distill/hy/mod.rs: Error", "layouts/src/distill/hy/mod.rs: DataFragment", "layouts/src/distill/de/mod.rs: Error"]}
{"id": "C101", "title": "The order and the names of variants do not matter", "statement": "If the variants of the sums among the layouts are put in another order and given other names, hydration reads the same trees, up to the numbers of the variants and the order of the items of unordered lists; derived deserialization reads the same trees; and a tree that dehydration writes is not refused.", "quantifier": "every set of layouts, every permutation and renaming of the variants of its sums at once, every dataset and tree", "why_tests_cant": "A test tries some orders of some variants; the variants of nested sums can be permuted independently, and an order may decide which failure is met first.", "anchors": ["layouts/src/distill/hy/mod.rs: hydrate_with_ref", "layouts/src/distill/de/mod.rs: dehydrate_with", "generators/rust/treeldr-rs-macros/src/generate/de.rs"]}
{"id": "C102", "title": "The identifiers of layouts do not matter", "statement": "If the layouts are put under other identifiers, where identical layouts may be merged into one, hydration returns the same tree, annotated with the other identifiers and up to the order of the items of unordered lists, or the same error, or fails in the same way; and dehydration writes the same dataset, or returns the same error, or fails in the same way. Derived deserialization returns the same value, with all lists in the same order, and derived serialization writes the same dataset, or they fail in the same way.", "quantifier": "every set of layouts, every assignment of identifiers to them that merges only identical layouts, every dataset and tree", "why_tests_cant": "A test has layouts under some identifiers; that no computation looks at an identifier other than to find the layout must hold for all layouts and all identifiers.", "anchors": ["layouts/src/distill/hy/mod.rs: hydrate_with_ref", "layouts/src/distill/de/mod.rs: dehydrate", "layouts/src/ref.rs: Ref", "generators/rust/treeldr-rs-macros/src/generate/de.rs", "generators/rust/treeldr-rs-macros/src/generate/ser.rs"]}
{"id": "C103", "title": "Making required fields optional keeps what could be read and written", "statement": "If some required fields of record layouts are made optional, then every dataset that was read is still read, as the same tree, by hydration and by derived deserialization; and every tree that was written, by dehydration or by derived serialization, is still written, as the same dataset.", "quantifier": "every set of layouts, every choice of required fields to make optional, every dataset, input and tree", "why_tests_cant": "A test changes one field of one layout and tries some documents; layouts are nested, and a change in one of them must not spoil another one that uses it.", "anchors": ["layouts/src/distill/hy/mod.rs: hydrate_with_ref", "layouts/src/distill/de/mod.rs: dehydrate_with_ref", "generators/rust/treeldr-rs-macros/src/generate/de.rs", "generators/rust/treeldr-rs-macros/src/generate/ser.rs", "layouts/src/layout/product.rs: Field"]}
{"id": "C104", "title": "Optional fields that are not used can be added", "statement": "If optional fields are added to record layouts, possibly with new layouts, then every dataset that does not mention their properties is read with the same outcome as before, by hydration and by derived deserialization, and every tree that does not have their keys is written with the same outcome as before, by dehydration and by derived serialization.", "quantifier": "every set of layouts, every set of added optional fields and layouts, every dataset, input and tree", "why_tests_cant": "A test adds one field to one layout and tries some documents; layouts are nested and used in sums, where a change of what fits one variant spoils the choice between them.", "anchors": ["layouts/src/distill/hy/mod.rs: hydrate_with_ref", "layouts/src/distill/de/mod.rs: dehydrate_with_ref", "generators/rust/treeldr-rs-macros/src/generate/de.rs", "generators/rust/treeldr-rs-macros/src/generate/ser.rs", "layouts/src/layout/product.rs: Field"]}
{"id": "C105", "title": "Variants that are not used can be added", "statement": "If variants are added at the end of sum layouts, possibly with new layouts, then every dataset that does not mention the added variants is read with the same outcome as before, by hydration and by derived deserialization, and every tree or value that could be written before is written in the same way, by dehydration and by derived serialization.", "quantifier": "every set of layouts, every set of added variants and layouts, every dataset, input and tree", "why_tests_cant": "A test adds one variant to one sum and tries some documents; sums are nested, and a variant that fails late, after it has produced some output, only shows with particular trees.", "anchors": ["layouts/src/distill/hy/mod.rs: hydrate_with_ref", "layouts/src/distill/de/mod.rs: dehydrate_with_ref", "generators/rust/treeldr-rs-macros/src/generate/de.rs", "generators/rust/treeldr-rs-macros/src/generate/ser.rs", "layouts/src/layout/sum.rs"]}
{"id": "C106", "title": "A sum with one variant reads and writes what the layout of its variant does", "statement": "A sum layout with a single variant that has no patterns and passes the inputs and the graph on reads exactly the datasets that the layout of the variant reads, as the same tree, and writes exactly the trees that it writes, as the same dataset; the same holds for derived enumerations with one variant, which also report the same errors.", "quantifier": "every set of layouts, every sum of this form in it, with any number of inputs, every dataset, graph, input, tree and value", "why_tests_cant": "What the layout of the variant does, at any depth and with any dataset, must be what the sum does.", "anchors": ["layouts/src/distill/hy/mod.rs: hydrate_with_ref", "layouts/src/distill/de/mod.rs: dehydrate_with_ref", "generators/rust/treeldr-rs-macros/src/generate/de.rs", "generators/rust/treeldr-rs-macros/src/generate/ser.rs", "layouts/src/layout/sum.rs"]}
{"id": "C107", "title": "The keys of records can be renamed", "statement": "If the keys of the fields of all record layouts, and those in the constants of unit layouts, are replaced, without changing the order in which fields are visited, then the tree read from a dataset is the former one with the keys replaced, and what could not be read still cannot; if different keys stay different, then a tree with the keys replaced is written as the dataset that was written before.", "quantifier": "every set of layouts, every renaming of keys (injective for writing), every order on trees that does not depend on the names of the keys, every dataset, graph, input and tree", "why_tests_cant": "The keys occur at any depth of the tree and in any of the layouts, and no key may have a special meaning.", "anchors": ["layouts/src/distill/hy/mod.rs: hydrate_with_ref", "layouts/src/distill/de/mod.rs: dehydrate_with_ref", "layouts/src/layout/product.rs: ProductLayout", "layouts/src/value/mod.rs: Value, TypedValue::into_untyped"]}
