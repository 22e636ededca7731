{"claims": [
{"property": "C01", "status": "proved", "theorems": ["Verif.Props.C01_matching_sound_complete_nodup", "Verif.Props.C01_next_terminates"], "note": ""},
{"property": "C02", "status": "proved", "theorems": ["Verif.Props.C02_into_unique", "Verif.Props.C02_into_required_unique"], "note": ""},
{"property": "C03", "status": "proved", "theorems": ["Verif.Props.C03_matches_order_independent", "Verif.Props.C03_unique_order_independent"], "note": ""},
{"property": "C04", "status": "proved", "theorems": ["Verif.Props.C04_hydrate_meaning", "Verif.Props.C04_meaning_hydrate", "Verif.Props.C04_meaning_returns"], "note": "Registries are closed (variables in scope), as registries compiled from definitions with one input per literal layout are (C22)."},
{"property": "C05", "status": "proved", "theorems": ["Verif.Props.C05_hydrate_conforms"], "note": ""},
{"property": "C06", "status": "proved", "theorems": ["Verif.Props.C06_hydrate_annotated"], "note": ""},
{"property": "C07", "status": "partial", "theorems": ["Verif.Props.C07_hydrate_dataset_is_a_set_partial", "Verif.Props.C07_order_decides_panic", "Verif.Props.C07_told_apart", "Verif.Props.C07_no_sums", "Verif.Props.C07_no_cause"], "note": "Values and errors do not depend on the order; false of the code for panics (witness C07_order_decides_panic). Whether a value is returned, and which, does not depend on the order, panics included, when variants declare no variables and are told apart by their patterns (C07_told_apart), or without sums, or when nothing read has a cause of panic (C07_no_cause)."},
{"property": "C08", "status": "partial", "theorems": ["Verif.Props.C08_sum_selects_single_variant_partial", "Verif.Props.C08_sum_panics"], "note": "Exact characterisation for variants without own variables; otherwise false of the code (witnesses in C08_sum_panics)."},
{"property": "C09", "status": "partial", "theorems": ["Verif.Props.C09_ordered_list_follows_chain_partial", "Verif.Props.C09_cyclic_list_diverges"], "note": "Exact characterisation of success; false of the code for cyclic chains (C09_cyclic_list_diverges)."},
{"property": "C10", "status": "proved", "theorems": ["Verif.Props.C10_accepted_conforms", "Verif.Props.C10_dehydrate_conforms"], "note": ""},
{"property": "C100", "status": "proved", "theorems": ["Verif.Props.C100_hydrate", "Verif.Props.C100_dehydrate", "Verif.Props.C100_missing_key", "Verif.Props.C100_missing_required_key", "Verif.Props.Witness.C100_message"], "note": "Messages of errors of hydration and dehydration, with the laws of quotation of C99 (Display.Quotes)."},
{"property": "C101", "status": "partial", "theorems": ["Verif.Props.C101_hydrate_partial", "Verif.Props.C101_same_tree_partial", "Verif.Props.C101_told_apart", "Verif.Props.C101_told_apart_trees", "Verif.Props.C101_order_decides_panic", "Verif.Props.C101_derived", "Verif.Props.C101_dehydrate_partial", "Verif.Props.C101_order_decides_ambiguity"], "note": "Derived deserialization: in full. Hydration: in full if variants are told apart by their patterns (C101_told_apart), and otherwise if it does not panic; the order may decide between a tree and a panic (C101_order_decides_panic). Dehydration: a tree that is written is not refused, but for a term ambiguity, which may depend on the order (C101_order_decides_ambiguity)."},
{"property": "C102", "status": "proved", "theorems": ["Verif.Props.C102_hydrate", "Verif.Props.C102_same_tree", "Verif.Props.C102_dehydrate", "Verif.Props.C102_derived", "Verif.Props.C102_derived_writing", "Verif.Props.C102_identifiers_decide_order"], "note": "C102_identifiers_decide_order shows why the order of the items of unordered lists is excepted for hydration."},
{"property": "C103", "status": "partial", "theorems": ["Verif.Props.C103_hydrate_partial", "Verif.Props.C103_derived", "Verif.Props.C103_derived_writing", "Verif.Props.C103_dehydrate_partial", "Verif.Props.C103_sum_reading", "Verif.Props.C103_sum_writing"], "note": "Derived deserialization and serialization: in full. Hydration: if variants are told apart by their patterns. Dehydration: without sums. The code violates the property otherwise (C103_sum_reading, C103_sum_writing): another variant may start to apply."},
{"property": "C104", "status": "partial", "theorems": ["Verif.Props.C104_hydrate", "Verif.Props.C104_dehydrate", "Verif.Props.C104_derived_partial", "Verif.Props.C104_derived_writing", "Verif.Props.C104_derived_unknown"], "note": "Hydration, dehydration and derived serialization: in full. Derived deserialization: if the interpretation knows the constants of the added fields; the code violates the property otherwise (C104_derived_unknown)."},
{"property": "C105", "status": "partial", "theorems": ["Verif.Props.C105_hydrate", "Verif.Props.C105_dehydrate_partial", "Verif.Props.C105_derived_partial", "Verif.Props.C105_derived_writing", "Verif.Props.C105_dehydrate_violated", "Verif.Props.C105_derived_unknown"], "note": "Hydration and derived serialization: in full. Derived deserialization: if the interpretation knows the constants of the added variants; the code violates the property otherwise (C105_derived_unknown). Dehydration: for added variants that accept values of another kind than those in the tree; the code violates the property for variants that fail later (C105_dehydrate_violated)."},
{"property": "C106", "status": "proved", "theorems": ["Verif.Props.C106_hydrate", "Verif.Props.C106_dehydrate", "Verif.Props.C106_derived", "Verif.Props.C106_derived_writing", "Verif.Props.C106_hydrate_panics"], "note": "C106_hydrate_panics: in hydration, an error of the layout is a panic of the sum."},
{"property": "C107", "status": "proved", "theorems": ["Verif.Props.C107_hydrate", "Verif.Props.C107_untyped", "Verif.Props.C107_hydrate_failures", "Verif.Props.C107_dehydrate", "Verif.Props.C107_dehydrate_failures"], "note": "Fields and entries keep their order; hydration and dehydration, not derived code."},
{"property": "C11", "status": "partial", "theorems": ["Verif.Props.C11_conforming_accepted", "Verif.Props.C11_dehydrate_accepts_partial", "Verif.Props.C11_trees_accepted", "Verif.Props.C11_term_ambiguity", "Verif.Props.C11_no_term_ambiguity", "Verif.Props.C11_dehydrate_accepts"], "note": "dehydrate_with: proved in full (C11_conforming_accepted). The top-level function can additionally report TermAmbiguity; witness C11_term_ambiguity. Excluded for the tree layouts of C17 (C11_trees_accepted).  For layouts that give one term to each resource (Registry.OneTerm, a condition visible in the layouts) there is no TermAmbiguity, and every conforming tree is accepted at the top level (C11_no_term_ambiguity, C11_dehydrate_accepts)."},
{"property": "C12", "status": "proved", "theorems": ["Verif.Props.C12_only_adds"], "note": ""},
{"property": "C13", "status": "proved", "theorems": ["Verif.Props.C13_introduced_fresh", "Verif.Props.C13_node_fresh", "Verif.Props.C13_run_uses_own_resources", "Verif.Props.C13_bounded"], "note": ""},
{"property": "C14", "status": "proved", "theorems": ["Verif.Props.C14_one_term_per_resource", "Verif.Props.C14_generated_distinct", "Verif.Props.C14_ambiguity"], "note": ""},
{"property": "C15", "status": "partial", "theorems": ["Verif.Props.C15_only_selected_variant_partial", "Verif.Props.C15_failed_variant_leaks"], "note": "False of the code (witness); proved when the other variants fail at the head."},
{"property": "C16", "status": "partial", "theorems": ["Verif.Props.C16_default_graph_partial", "Verif.Props.C16_graph_ignored", "Verif.Props.C16_wrong_graph"], "note": "False of the code: the current graph is ignored (proved for all inputs). Proved for layouts that do not name graphs, in the default graph."},
{"property": "C17", "status": "partial", "theorems": ["Verif.Props.C17_conforming_round_trip_partial", "Verif.Props.C17_tree_round_trip_partial", "Verif.Props.C17_record_round_trip_partial", "Verif.Props.C17_absent_identifier_fails", "Verif.Props.C17_same_identifier_fails", "Verif.Props.C17_identifier_variant_fails"], "note": "Proved for every conforming tree of records, lists, sums and literals whose layouts link sub-values by properties, with distinct identifiers and distinguishable variants; witnesses show that the side conditions are needed. Several inputs and arbitrary patterns are the subject of C90. Named graphs, and identifier variants that state no triple of their own, are outside."},
{"property": "C18", "status": "partial", "theorems": ["Verif.Props.C18_list_round_trip_partial", "Verif.Props.C18_empty_list_fails"], "note": "Proved for non-empty lists of any length, with items of any tree layout; the empty list is a counterexample."},
{"property": "C19", "status": "proved", "theorems": ["Verif.Props.C19_variable_denotes"], "note": ""},
{"property": "C20", "status": "partial", "theorems": ["Verif.Props.C20_patterns_ignored", "Verif.Props.C20_unmatched_string_accepted"], "note": "False of the code: patterns are never used (proved for all inputs), with a concrete witness in both directions."},
{"property": "C21", "status": "proved", "theorems": ["Verif.Props.C21_variables", "Verif.Props.C21_nested", "Verif.Props.C21_definition"], "note": "Names denote their last declaration; nested layouts do not see outer variables; C21_definition: the compiled layout is the declarative meaning (SLayout.Means) of the whole definition."},
{"property": "C22", "status": "proved", "theorems": ["Verif.Props.C22_closed", "Verif.Props.C22_runtime", "Verif.Props.C22_registry", "Verif.Props.C22_loaded"], "note": "Every compiled layout is closed w.r.t. the variables in scope at each place; with one input per literal layout the run-time registry is closed. C22_loaded: the layouts that the command line tool loads."},
{"property": "C23", "status": "partial", "theorems": ["Verif.Props.C23_no_undeclared_variable", "Verif.Props.C23_dehydrate_no_undeclared_variable", "Verif.Props.C23_tool_partial", "Verif.Props.Witness.C23_literal_inputs"], "note": "Holds for closed layouts, hence for definitions whose literal layouts have one input (C23_tool_partial: from the layout files on). The code violates the property for literal layouts with several inputs (witness)."},
{"property": "C24", "status": "partial", "theorems": ["Verif.Props.C24_overwrites", "Verif.Props.C24_partial", "Verif.Props.C24_detected"], "note": "Redefinitions are detected, but the previous layout has already been replaced (C24_overwrites); without a redefinition nothing is changed."},
{"property": "C25", "status": "proved", "theorems": ["Verif.Props.C25_field", "Verif.Props.C25_item", "Verif.Props.C25_sized", "Verif.Props.C25_node_layout", "Verif.Props.C25_node"], "note": "Equality of computations, including errors; the names must denote the first input and first introduced variable (not shadowed)."},
{"property": "C26", "status": "partial", "theorems": ["Verif.Props.C26_partial", "Verif.Props.C26_literal_inputs"], "note": "Holds for records, sums and lists; literal layouts always require one input (C26_literal_inputs)."},
{"property": "C27", "status": "proved", "theorems": ["Verif.Props.C27_grammar", "Verif.Props.C27_members", "Verif.Props.C27_unknown", "Verif.Props.C27_duplicate", "Verif.Props.C27_unique"], "note": "The parser accepts exactly the documents of an independent grammar (any order of members, each member at most once, none that the kind does not define), at every level of nesting. Maps (fields, variants, prefixes, extra) silently keep the last of several entries with the same name: C27_duplicate_field_accepted."},
{"property": "C28", "status": "proved", "theorems": ["Verif.Props.C28_determinize", "Verif.Props.C28_built_automata_wf"], "note": "Termination, language equality and determinism for every well-formed automaton; well-formedness (one map entry per key, labels are range sets) holds of everything the construction API builds."},
{"property": "C29", "status": "partial", "theorems": ["Verif.Props.C29_det_product", "Verif.Props.C29_product_partial", "Verif.Props.C29_product_epsilon_counterexample"], "note": "Full for deterministic automata. For non-deterministic automata: inclusion always, equality without epsilon-transitions; equality with epsilon-transitions is false of the code (counterexample)."},
{"property": "C30", "status": "partial", "theorems": ["Verif.Props.C30_build_partial", "Verif.Props.C30_sequence_counterexample", "Verif.Props.C30_text_counterexample", "Verif.Props.C30_repeat_counterexample", "Verif.Props.C30_empty_panics"], "note": "Exact characterization of what is compiled; correct for expressions without nonempty sequences (and without two degenerate repetitions); false in general, see the counterexamples."},
{"property": "C31", "status": "partial", "theorems": ["Verif.Props.C31_parse_display_partial", "Verif.Props.C31_canonical", "Verif.Props.C31_text", "Verif.Props.C31_repetition", "Verif.Props.C31_postfix_counterexample", "Verif.Props.C31_display_counterexamples", "Verif.Props.C31_flattened"], "note": "Round trip exactly for the canonical expressions, up to language for the printable ones, and for plain text; repetitions are printed in the usual notation; postfix operators apply to the whole alternative, and some printed forms are not read back."},
{"property": "C32", "status": "proved", "theorems": ["Verif.Props.C32_class", "Verif.Props.C32_parse_class", "Verif.Props.C32_trailing_dash_counterexample"], "note": "Both directions, for the grammar Class."},
{"property": "C33", "status": "partial", "theorems": ["Verif.Props.C33_singleton_partial", "Verif.Props.C33_repeat_counterexample", "Verif.Props.C33_missed_counterexample"], "note": "Exact without repetitions and without unions of several expressions; false in general."},
{"property": "C34", "status": "partial", "theorems": ["Verif.Props.C34_terminates", "Verif.Props.C34_domain", "Verif.Props.C34_value_partial", "Verif.Props.C34_negative_counterexample"], "note": "termination and domain for all rationals; the numeral is right above -1 and wrong from -1 down (sign printed twice)"},
{"property": "C35", "status": "partial", "theorems": ["Verif.Props.C35_roundtrip", "Verif.Props.C35_reread", "Verif.Props.C35_domain_partial", "Verif.Props.C35_negative_counterexample", "Verif.Props.C35_exponent_panics", "Verif.Props.C35_json_numbers", "Verif.Props.C35_reads_partial", "Verif.Props.C35_typed_literal"], "note": "round trip for all trees; numbers from -1 down are wrongly rejected; a JSON document is read exactly when it has no exponent, and makes the conversion panic otherwise"},
{"property": "C36", "status": "proved", "theorems": ["Verif.Props.C36_with", "Verif.Props.C36_contains", "Verif.Props.C36_absent", "Verif.Props.C36_cli"], "note": "Lookup in combined registries, and in the registry of the command line tool."},
{"property": "C37", "status": "proved", "theorems": ["Verif.Props.C37", "Verif.Props.C37_commands", "Verif.Props.C37_selected"], "note": "For every sequence of files that can be loaded; commands use the selected layout, and fail when no layout can be chosen."},
{"property": "C38", "status": "proved", "theorems": ["Verif.Props.C38"], "note": "Membership is stated with an independent predicate (Layout.Mentions)."},
{"property": "C39", "status": "partial", "theorems": ["Verif.Props.C39_integer_partial", "Verif.Props.C39_zero_panics", "Verif.Props.C39_bignum_counterexample"], "note": "holds for positive integers and for negative integers above -2^64; zero panics, smaller integers are encoded wrongly"},
{"property": "C40", "status": "partial", "theorems": ["Verif.Props.C40_map_injective", "Verif.Props.C40_map_counter", "Verif.Props.C40_minimize_partial", "Verif.Props.C40_minimize_by_finality_partial", "Verif.Props.C40_compress_partial", "Verif.Props.C40_try_map_counterexample", "Verif.Props.C40_minimize_counterexample", "Verif.Props.C40_minimize_panics", "Verif.Props.C40_compress_counterexample", "Verif.Props.C40_compress_diverges"], "note": "map: full. minimize: the partition refinement is correct and terminates, but the code drops the final states, so the language is preserved only after marking them; from the partition of the reachable states it needs all states with transitions to be reachable. compress: what the result accepts is accepted, and conversely if only the initial state branches. try_map and compress do not preserve the language in general (counterexamples)."},
{"property": "C41", "status": "proved", "theorems": ["Verif.Props.C41_serialize"], "note": "Round trip of the transition table; same strings."},
{"property": "C42", "status": "proved", "theorems": ["Verif.Props.C42_reachable", "Verif.Props.C42_select", "Verif.Props.C42_partition"], "note": "Exact reachability, no repetition, termination; also for select_states and partition."},
{"property": "C43", "status": "proved", "theorems": ["Verif.Props.C43_hydrate_deterministic", "Verif.Props.C43_dehydrate_deterministic", "Verif.Props.C43_dehydrate_terminates", "Verif.Props.C43_cyclic_sum_diverges"], "note": ""},
{"property": "C44", "status": "partial", "theorems": ["Verif.Props.C44_partial", "Verif.Props.C44_violated"], "note": "Holds for expressible layouts (unit, id, records with required fields, sums, lists, tuples), up to references; proved false for every other layout the generator accepts (sets, literals, optional fields, constants, id resources and patterns). Field and variant names are assumed to be Rust identifiers; RDF interpretation round trip of IRIs is assumed."},
{"property": "C45", "status": "partial", "theorems": ["Verif.Props.C45_no_panic_partial", "Verif.Props.C45_panics", "Verif.Props.C08_sum_panics", "Verif.Props.C45_panic_causes", "Verif.Props.C45_causes_prevent", "Verif.Props.C45_no_cause_no_panic", "Verif.Props.C45_value_panics"], "note": "False of the code in general (witnesses). The partial theorem gives syntactic conditions; every panic has a cause (PanicCause), every cause in a component prevents success, and at values the causes are exactly what makes hydration panic."},
{"property": "C46", "status": "proved", "theorems": ["Verif.Props.C46_quads_are_instances"], "note": ""},
{"property": "C47", "status": "partial", "theorems": ["Verif.Props.C47_no_panic_partial", "Verif.Props.C47_panics", "Verif.Props.C47_panic_causes", "Verif.Props.C47_causes_prevent"], "note": "False of the code in general (witnesses). The partial theorem gives syntactic conditions; every panic has a cause (DeCause), and every cause in a component prevents success."},
{"property": "C48", "status": "partial", "theorems": ["Verif.Props.C48_typed_partial", "Verif.Props.C48_constant_counterexample"], "note": "holds when no unit layout has a constant; the constant is lost otherwise"},
{"property": "C49", "status": "proved", "theorems": ["Verif.Props.C49_wrapped", "Verif.Props.C49_content", "Verif.Props.C49_untagged", "Verif.Props.C49_tag", "Verif.Props.C49_everywhere", "Verif.Props.C49_reported", "Verif.Props.C49_literals"], "note": "get_layout_tag is modelled with a total vocabulary; collecting CBOR map entries is a parameter"},
{"property": "C50", "status": "partial", "theorems": ["Verif.Props.C50_serde_partial", "Verif.Props.C50_zero_panics", "Verif.Props.C50_bignum_counterexample"], "note": "holds for non-zero numbers that are 64-bit integers or exact floats; zero panics"},
{"property": "C51", "status": "partial", "theorems": ["Verif.Props.C51_unnamed_clash", "Verif.Props.C51_partial"], "note": "Refuted for Layout::build (new generator per call); proved with a shared generator."},
{"property": "C52", "status": "proved", "theorems": ["Verif.Props.C52_expansion", "Verif.Props.C52_header"], "note": "iff with the declarative relation Expands; the iref library is a parameter."},
{"property": "C53", "status": "partial", "theorems": ["Verif.Props.C53_set_operations_panic", "Verif.Props.C53_partial"], "note": "Unions and intersections panic; nothing else does."},
{"property": "C54", "status": "partial", "theorems": ["Verif.Props.C54_terminates", "Verif.Props.C54_partial", "Verif.Props.C54_exponent_panics"], "note": "Terminates on every document; does not panic when all numbers are decimal numerals; a constant with an exponent (1e3) makes it panic."},
{"property": "C55", "status": "proved", "theorems": ["Verif.Props.C55"], "note": "Invariant of the stack: never empty, each element has an alternative."},
{"property": "C56", "status": "partial", "theorems": ["Verif.Props.C56_partial", "Verif.Props.C56_constants", "Verif.Props.C56_patterns", "Verif.Props.C56_default_resource_rejected", "Verif.Props.C56_default_graph_lost", "Verif.Props.C56_nested_boolean_rejected", "Verif.Props.C56_string_literal_rejected", "Verif.Props.C56_list_of_default_lost"], "note": "Holds for the definitions satisfying SLayout.Faithful; five conditions are necessary (the code violates the property without them): see the negations. Regular expressions are canonical (other printable ones keep their language, C56_patterns); constants have a JSON form (C56_constants)."},
{"property": "C57", "status": "proved", "theorems": ["Verif.Props.C57"], "note": "For every total order on IRIs (the order in which extra properties are kept)."},
{"property": "C58", "status": "proved", "theorems": ["Verif.Props.C58_redefinition", "Verif.Props.C58_loaded", "Verif.Props.C58_unnamed", "Verif.Props.C58_first_error", "Verif.Props.C58_explicit"], "note": "Loads describes what each file defines on its own."},
{"property": "C59", "status": "proved", "theorems": ["Verif.Props.C59_hydrate", "Verif.Props.C59_dehydrate", "Verif.Props.C59_with", "Verif.Props.C59_with_dehydrate"], "note": "For every bound on the depth of the recursion."},
{"property": "C60", "status": "partial", "theorems": ["Verif.Props.C60_prelude", "Verif.Props.C60_names", "Verif.Props.C60_range_violated_dehydrate", "Verif.Props.C60_range_violated_hydrate"], "note": "The prelude is always built and has the documented layouts. Violated: ranges of integer layouts are not checked."},
{"property": "C61", "status": "partial", "theorems": ["Verif.Props.C61_derived_reads_hydrated_partial", "Verif.Props.C61_hydrate_reads_derived_partial", "Verif.Props.C61_ordered_equal", "Verif.Props.C61_no_panic", "Verif.Props.C61_errors", "Verif.Props.C61_violated", "Verif.Props.C61_integers_in_range"], "note": "Agreement both ways up to the order of unordered lists, for total interpretations, literal types large enough and discriminated enumerations; four witnesses of disagreement otherwise. C61_errors: which error is reported when patterns have no match or several. The generated code is modelled as a function of the layout; that it compiles is not modelled."},
{"property": "C62", "status": "partial", "theorems": ["Verif.Props.C62_serialize_is_dehydrate_partial", "Verif.Props.C62_enums_agree_partial", "Verif.Props.C62_serialize_succeeds", "Verif.Props.C62_violated"], "note": "Equality with dehydration, as functions of the state, for values without enumerations; for enumerations whose tree shows the variant, the same quads up to order and the same terms; success for all values. Witnesses of disagreement for enumerations whose tree fits several variants and for layouts describing a resource other than their input."},
{"property": "C63", "status": "partial", "theorems": ["Verif.Props.C63_derived_round_trip_partial", "Verif.Props.C63_read_back", "Verif.Props.C63_read_back_sets"], "note": "For the tree layouts of C17, enumerations included, non-empty ordered lists, trees fitting one variant and distinct identifiers.  C63_read_back_sets: any patterns and any number of inputs, from any larger dataset that is not ambiguous and says nothing else (as in C90); without sets the value itself is read back (C63_read_back)."},
{"property": "C64", "status": "proved", "theorems": ["Verif.Props.C64_type_attributes", "Verif.Props.C64_field_attributes", "Verif.Props.C64_field_order", "Verif.Props.C64_contradiction_rejected", "Verif.Props.C64_type_order"], "note": "Stated for the model of the attribute parser; type attributes up to the representation of the prefix map."},
{"property": "C65", "status": "partial", "theorems": ["Verif.Props.C65_one_per_layout", "Verif.Props.C65_references_partial", "Verif.Props.C65_anonymous", "Verif.Props.C65_default_layout", "Verif.Props.C65_given_layout", "Verif.Props.C65_tool_errors", "Verif.Props.C65_invalid_ignored", "Verif.Props.C65_invalid_fails", "Verif.Props.C65_name_characters", "Verif.Props.C65_name_fragment", "Verif.Props.C65_name_parts", "Verif.Props.Witness.C65_same_name", "Verif.Props.Witness.C65_nested"], "note": "One type per layout, in order, and references name these types. Names may collide (witness), nested definitions abort (witness), tldr-rs ignores invalid files (C65_invalid_ignored)."},
{"property": "C66", "status": "partial", "theorems": ["Verif.Props.C66_partial", "Verif.Props.C66_check", "Verif.Props.C66_value_partial", "Verif.Props.Witness.C66_language", "Verif.Props.Witness.C66_number", "Verif.Props.Witness.C66_extra", "Verif.Props.Witness.C66_only_macros", "Verif.Props.Witness.C66_value_numbers", "Verif.Props.Witness.C66_value_language", "Verif.Props.Witness.C66_value_unsigned", "Verif.Props.Witness.C66_value_other"], "note": "Agreement on documents that treeldr accepts and that have no number and no tagged literal (from a text), or no number but integers of 64 bits, signed or not (from a serde_json::Value); witnesses for the others."},
{"property": "C67", "status": "proved", "theorems": ["Verif.Props.C67_rename", "Verif.Props.C67_same_tree"], "note": "All outcomes (tree, error, panic) for every bound; renaming injective on the resources in use and fixing the constants of the layouts."},
{"property": "C68", "status": "proved", "theorems": ["Verif.Props.C68_ignored", "Verif.Props.C68_predicates", "Verif.Props.Witness.C68_unrooted"], "note": "Removal (equivalently, addition anywhere) of ignored quads; the witness shows that rootedness is needed for quads about a foreign subject."},
{"property": "C69", "status": "proved", "theorems": ["Verif.Props.C69_unique_up_to_blank", "Verif.Props.C69_same_failure", "Verif.Props.C69_hydrate_alike", "Verif.Props.C69_compiled_constants", "Verif.Props.C69_default_names", "Verif.Props.Witness.C69_clash"], "note": "Freshness of the generated names is a hypothesis, met by the default options for compiled layouts (C69_default_names); the witness shows it is needed. C69_hydrate_alike excludes panics, which may depend on the order of quads (C07)."},
{"property": "C70", "status": "proved", "theorems": ["Verif.Props.C70_tree_layouts", "Verif.Props.C70_compact_round_trip"], "note": "Compact definitions compile to tree layouts; conforming trees round-trip through the default options. Sums of separate literals, records and constants are included; the restrictions on empty ordered lists, repeated identifiers and ambiguous variants are those of C17."},
{"property": "C71", "status": "partial", "theorems": ["Verif.Props.C71_cli_round_trip_partial", "Verif.Props.cli_layout"], "note": "Proved for documents whose numbers are greater than -1 (C35: others cannot be printed), without empty ordered lists (C17) and without repeated identifiers; bytes, unions, intersections and sums of other kinds of layouts are not compact definitions."},
{"property": "C72", "status": "partial", "theorems": ["Verif.Props.C72_presets_partial", "Verif.Props.C72_reference", "Verif.Props.C72_unimplemented", "Verif.Props.C72_trivial"], "note": "Proved for all layouts of the prelude but unit and boolean, whose Rust types () and bool the runtime does not implement (C72_unimplemented). The types of the layouts always and never do not exist in the runtime (C72_trivial)."},
{"property": "C73", "status": "partial", "theorems": ["Verif.Props.C73_variable_names", "Verif.Props.C73_derive_partial", "Verif.Props.C73_prefix", "Verif.Props.C73_raw"], "note": "Holds without a prefix named rust and without raw identifiers; both are proved to make the macros panic. Blank node identifiers of the RDF library are assumed to be those of N-Triples without dots. Emitted tokens are not modelled beyond the types."},
{"property": "C74", "status": "partial", "theorems": ["Verif.Props.C74_types_partial", "Verif.Props.C74_id"], "note": "Equivalence proved for every declaration, in both directions (accepting and rejecting). Identifiers of layouts cannot be set with attributes: violated, C74_id."},
{"property": "C75", "status": "proved", "theorems": ["Verif.Props.C75_rdf_formats", "Verif.Props.C75_tree_formats", "Verif.Props.C75_defaults", "Verif.Props.C75_terms"], "note": "Syntaxes of blank node identifiers and IRIs are parameters."},
{"property": "C76", "status": "partial", "theorems": ["Verif.Props.C76_convert_tree_partial", "Verif.Props.C76_success", "Verif.Props.C76_convert_rdf", "Verif.Props.C76_numbers_fail"], "note": "Conversion never changes a tree, with numbers that CBOR can represent. Violated: it fails or panics for some numbers (-1 to JSON, 0 to CBOR, exponents from JSON)."},
{"property": "C77", "status": "partial", "theorems": ["Verif.Props.C77_hydrated_conforms", "Verif.Props.C77_dehydrated_conforms", "Verif.Props.C77_cbor_partial"], "note": "Conformance is proved in full; encoding in CBOR panics when a number is zero."},
{"property": "C78", "status": "partial", "theorems": ["Verif.Props.C78_partial", "Verif.Props.C78_default_resource", "Verif.Props.SsExample.C78_language_lost", "Verif.Props.SsExample.C78_number_rejected", "Verif.Props.SsExample.C78_default_graph_lost", "Verif.Props.SsExample.C78_list_of_default_lost", "Verif.Props.SsExample.C78_key_lost", "Verif.Props.SsExample.C78_number_lost"], "note": "Proved for definitions without language tags, numeric extra properties, numeric constants, explicit default graphs, lists of one default name and keys that are not text; each of these is shown to be lost or rejected."},
{"property": "C79", "status": "partial", "theorems": ["Verif.Props.C79_written_was_read_partial", "Verif.Props.C79_canonical_partial", "Verif.Props.C79_accepted_partial", "Verif.Props.C79_failed_variant_adds", "Verif.Props.C79_unbound_introduction_adds", "Verif.Props.C79_graph_adds"], "note": "Proved for trees whose sums are decided by the kind of value, layouts that bind the variables they introduce, and parts without a graph of their own. Each of the three conditions is needed: witnesses. The code violates the property otherwise."},
{"property": "C80", "status": "partial", "theorems": ["Verif.Props.C80_read_again_partial", "Verif.Props.C80_identified_partial", "Verif.Props.C80_shared_node"], "note": "Proved when no two terms written stand for the same term read, besides the conditions of C79. The second reading returns without panic if the variants of sums are told apart by their patterns; otherwise, what it returns is the same tree. The code violates the property when an identified node with a blank part is read at two places: witness."},
{"property": "C81", "status": "partial", "theorems": ["Verif.Props.C81_stored_partial", "Verif.Props.C81_documents_partial", "Verif.Props.C81_default_names"], "note": "Proved for the layouts and trees of C17 (Document.Written). Violated with the default options, whose blank nodes are the same for all documents (C81_default_names)."},
{"property": "C82", "status": "partial", "theorems": ["Verif.Props.C82_written_alike_partial", "Verif.Props.C82_different_trees_partial", "Verif.Props.C82_constants"], "note": "Proved for the layouts and trees of C17 (Document.Written), up to the order and repetition of the items of unordered lists; equality without unordered lists. C90_one_tree_sets covers any patterns and several inputs. Violated by sums of constants that state nothing (C82_constants)."},
{"property": "C83", "status": "proved", "theorems": ["Verif.Props.C83_join", "Verif.Props.C83_members", "Verif.Props.C83_select"], "note": "Record layouts put together (same patterns and variables, union of the fields) read what the parts read, and nothing else."},
{"property": "C84", "status": "proved", "theorems": ["Verif.Props.C84_documents", "Verif.Props.C84_each_document", "Verif.Props.C84_as_alone", "Verif.Props.C84_written_properties", "Verif.Props.C84_documents_in_graph", "Verif.Props.C84_any_layouts", "Verif.Props.C84_any_graph", "Verif.Props.C84_stored_partial", "Verif.Props.C84_different_properties", "Verif.Props.C84_documents_partial"], "note": "For every layout whose properties are fixed, any number of inputs, in any graph. C17 and C90 say when a record is read back on its own. C84_any_layouts does without the condition on properties. The two older theorems with the suffix are the special case of the layouts of C17."},
{"property": "C85", "status": "proved", "theorems": ["Verif.Props.C85_kept", "Verif.Props.C85_exact", "Verif.Props.Witness.C85_cut", "Verif.Props.Witness.C85_empty"], "note": "For all layouts with any number of inputs and introduced variables, provided that no value format selects a named graph. Lists are complete if the terms that end them are used for nothing else (EndsFresh, shown to be needed by C85_cut); variants are the same if their patterns tell them apart (ToldApart). Nothing is said of what always layouts read, nor where an empty list was written (C85_empty)."},
{"property": "C86", "status": "proved", "theorems": ["Verif.Props.C86_accepts", "Verif.Props.C86_longest", "Verif.Props.C86_decided", "Verif.Props.C86_order", "Verif.Props.C86_module", "Verif.Props.Witness.C86_local_layout", "Verif.Props.Witness.C86_no_content"], "note": "For layouts with one IRI, as with the default interpretation. A layout of the files whose own IRI has a declared prefix is also named in the module declared (C86_local_layout)."},
{"property": "C87", "status": "proved", "theorems": ["Verif.Props.C87_graph_alone", "Verif.Props.C87_naming_reads", "Verif.Props.C87_naming_writes"], "note": "For layouts that name no graph, and those obtained by naming one graph in every pattern."},
{"property": "C88", "status": "partial", "theorems": ["Verif.Props.C88_stored_partial", "Verif.Props.C88_documents_partial", "Verif.Props.C88_naming_round_trip_partial"], "note": "Missing: layouts that use several graphs, for which the current graph is not the one dehydration writes to (C16); the layouts and trees that C17 excludes; C90_in_graph_sets covers any patterns and several inputs."},
{"property": "C89", "status": "partial", "theorems": ["Verif.Props.C89_same_parse", "Verif.Props.C89_true", "Verif.Props.C89_diagnostic", "Verif.Props.C89_too_large_partial", "Verif.Props.Witness.C89_message_shows_position", "Verif.Props.Witness.C89_not_too_large"], "note": "Every error is true of the fragment at its position, positions always exist, and they do not change what is accepted. The code violates the rest: some messages show the position instead of the value, and numbers with an exponent are reported as too large (for others C89_too_large_partial)."},
{"property": "C90", "status": "proved", "theorems": ["Verif.Props.C90_read_back", "Verif.Props.C90_single_valued", "Verif.Props.Witness.C90_ambiguous", "Verif.Props.C90_one_tree", "Verif.Props.C90_in_graph", "Verif.Props.C90_optional", "Verif.Props.C90_sets", "Verif.Props.C90_said", "Verif.Props.C90_exact", "Verif.Props.Witness.C90_other_item", "Verif.Props.C90_one_tree_sets", "Verif.Props.C90_in_graph_sets"], "note": "Beyond the statement: layouts that use several graphs, variants that introduce variables (hydration fails with those, see C04) and empty lists (nothing is written for them, see C85). Ambiguous data is rejected (C90_ambiguous). The terms that end lists are used for nothing else (EndsFresh), as in C85. With sets, other items in the dataset are read too (C90_other_item), and an item mentioned twice is read twice."},
{"property": "C91", "status": "proved", "theorems": ["Verif.Props.C91_printed", "Verif.Props.C91_no_meaning", "Verif.Props.C91_meaning_printed"], "note": "From the layout files and the dataset to what is printed. Meaning: Verif/HydrateSpec.lean, for any nesting from the depth allowed to hydration on. C91_meaning_printed: with enough stack, JSON output."},
{"property": "C92", "status": "proved", "theorems": ["Verif.Props.C92_tool", "Verif.Props.C92_sets"], "note": "Stated for the layouts that the files are compiled to; conditions as in C90, numbers as in C71. The subjects are those returned by dehydration, which the tool does not print. With sets (C92_sets): up to the order and repetition of the items of sets, if the dataset says nothing but the tree."},
{"property": "C93", "status": "proved", "theorems": ["Verif.Props.C93_error_true", "Verif.Props.C93_error_true_closed", "Verif.Props.C93_causes_prevent", "Verif.Props.C93_succeeds_iff", "Verif.Props.C93_missing_key"], "note": "What each error says is ErrorCause (Verif/ErrorSpec.lean). C93_error_true makes one exception, sums with a variant that declares variables (the code matches such variants without declaring their variables, see section 4 of DESIGN.md); C93_error_true_closed is without exception for registries without such variants."},
{"property": "C94", "status": "proved", "theorems": ["Verif.Props.C94_error_true", "Verif.Props.C94_success_accepted", "Verif.Props.C94_exclusive", "Verif.Props.C94_causes_prevent", "Verif.Props.C94_accepted_iff", "Verif.Props.C94_dichotomy", "Verif.Props.C94_accepted_conforms", "Verif.Props.C94_error_exact", "Verif.Props.C94_success_iff"], "note": "Beyond the statement: which resources get several terms (C11_term_ambiguity shows that it happens). Panics on literals that are not implemented are C47.  With such layouts (Registry.OneTerm) the exception for TermAmbiguity disappears (C94_error_exact, C94_success_iff)."},
{"property": "C95", "status": "proved", "theorems": ["Verif.Props.C95_error_true", "Verif.Props.C95_causes_prevent", "Verif.Props.C95_succeeds_iff", "Verif.Props.C95_missing_field", "Verif.Props.C95_invalid_literal"], "note": "The success characterisation is for layouts whose variables are bound by their patterns (C61_no_panic) and for a sufficient bound on the nesting."},
{"property": "C96", "status": "proved", "theorems": ["Verif.Props.C96_hydrate", "Verif.Props.C96_types", "Verif.Props.C96_other_properties", "Verif.Props.C96_types_other_properties", "Verif.Props.Witness.C96_variable_property"], "note": "For every layout. The witness shows that a pattern whose property is a variable is concerned by every property."},
{"property": "C97", "status": "proved", "theorems": ["Verif.Props.C97_values", "Verif.Props.C97_success", "Verif.Props.C97_equal", "Verif.Props.C97_errors", "Verif.Props.Witness.C97_order_shows"], "note": "For closed, well typed sets of layouts and datasets without repeated quads. C97_errors: for derivable layouts, an error for one order is an error for every other. The order of the items of unordered lists and which error is reported do depend on the order of the quads: Witness.C97_order_shows."},
{"property": "C98", "status": "proved", "theorems": ["Verif.Props.C98_rename", "Verif.Props.Witness.C98_merged"], "note": "All outcomes (value, error, panic) for every bound; the renaming is injective on the resources in use and fixes the constants of the layouts. Merging two resources does change the outcome (Witness.C98_merged)."},
{"property": "C99", "status": "proved", "theorems": ["Verif.Props.C99_text_determines_tree", "Verif.Props.C99_literal", "Verif.Props.C99_number", "Verif.Props.C99_prefix", "Verif.Props.Quote.quotes", "Verif.Props.Witness.C99_text"], "note": "For every quotation of strings that can be told apart (Display.Quotes), in particular that of JSON (Quote.quotes)."}
]}
