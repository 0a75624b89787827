W = "Whatami."
def t(s): return " ".join(W + x for x in s.split())
c("C01", "proved", t("c01_insertion_order"))
c("C02", "proved", t("c02_order c02_order_value c02_order_nonids"))
c("C03", "proved", t("c03_nonids c03_nonids_any_chain"))
c("C04", "proved", t("c04_shape c04_defined"))
c("C09", "proved", t("c09_quoted c09_collisions c09_nested"))
c("C14", "proved", t("c14_first_match c14_never_consulted"))
c("C15", "proved", t("c15_declining c15_after_capture_all c15_declining_id"))
c("C16", "proved", t("c16_insert c16_drop c16_failure c16_drop_insert c16_reset c16_nodup"))
c("C17", "proved", t("c17_never_none c17_default c17_exactly c17_raises"), "What shows in a value is specified in Spec/Shown.lean.")
c("C24", "proved", t("c24_private c24_private_object c24_private_defaults"))
c("C25", "proved", t("c25_exact c25_empty_affix"))
c("C26", "proved", t("c26_precedence c26_keys"))
c("C05", "proved", t("c05_maxlength c05_equal c05_length c05_positional c05_positional_length c05_positional_equal"))
c("C18", "proved", t("c18_flatten c18_flatten_total"))
c("C19", "proved", t("c19_paths c19_flat c19_recursive_adds c19_order"))
c("C20", "proved", t("c20_get c20_get_name"))
c("C21", "proved", t("c21_frame c21_copy c21_copy_apart c21_deep_apart c21_original_apart c21_set_copy c21_history c21_reachable_ok c21_stands c21_one c21_id c21_defined c21_possible"))
c("C22", "proved", t("c22_whatadd"))
c("C23", "partial", t("c23_no_memory_partial c23_leak c23_has_memory"),
  "False of the code: whatable() binds one dictionary in partial(What, conf=config_dict) (what.py:518). c23_has_memory refutes the full statement (NoMemory), c23_leak says exactly what leaks, c23_no_memory_partial proves the rest: no history without in-place writes to that dictionary changes later reports.")
c("C28", "proved", t("c28_bijection c28_injective"))
c("C29", "proved", t("c29_register c29_remove c29_lookups c29_reset"))
c("C30", "proved", t("c30_failure"))
c("C31", "partial", t("c31_mismatch_partial c31_always_raises c31_iff"),
  "False of the code: remove looks the nickname up among the ids (registry.py:73). c31_mismatch_partial proves the second half (mismatch raises, nothing changes); c31_always_raises and c31_iff prove that the first half holds exactly when the nickname equals the id.")
c("C32", "proved", t("c32_atomic"))
c("C33", "proved", t("c33_single c33_batch c33_add c33_history"))
c("C34", "proved", t("c34_contents"))
c("C35", "proved", t("c34_contents c35_gets_total c35_succeeds c35_reserved c35_nothing c35_what"))
c("C36", "proved", t("c36_get c36_get_one c36_unique c36_unique_total"))
c("C45", "proved", t("c45_posts"))
c("C10", "proved", t("c10_terminates c10_terminates_rule c10_progress c10_no_shape_error"))
c("C11", "proved", t("c11_whitespace c11_layouts"), "Except that 'set ()' and 'frozenset ()' with a blank are a nested id while 'set()' is the empty set: the theorems exclude those tokens, an example shows why.")
c("C12", "proved", t("c12_well_named c12_well_named_classes"), "Whats inside an object that a <class '...'> made the parser import are not the parser's: c12_well_named allows for them, c12_well_named_classes rules them out.")
c("C06", "proved", t("c06_round_trip c06_round_trip_hidden c06_equal"), "The documented limits are the hypotheses PrintableWhat and LoadableWhat (Spec/Fragment.lean). c06_round_trip_hidden adds quotes, non-id keys and frozensets and says what they change; c06_equal is the same with What.__eq__.")
c("C07", "proved", t("c07_id_of_parsed"), "Without frozensets: they come back as sets, whose ids differ (example beside the theorem).")
c("C08", "proved", t("c08_injective c08_injective_hidden c08_iff"), "The types int, float and complex are not in the fragment: their text is that of a What of that name (example beside the theorem).")
c("C13", "partial", t("c13_accepts_partial c13_full c13_syntax c13_seen c13_seen_syntax c13_iff c13_out_without_parameters c13_set_of_whats"), "False of the code. c13_full says exactly which ids are accepted, for all Whats with identifier names and keys and plain values, whatever their strings (Spec/Legible.lean: legible strings and names; Spec/Accepted.lean: classes that can be looked up, hashable set elements and keys, out_names with parameters); c13_syntax which of the others are syntax errors. c13_seen(_syntax) is the same for values that are shown as Whats or data standing for them (objects, functions, partials, arrays, generators, subclasses of builtins; Spec/StandIn.lean, C77). c13_iff is the special case of the fragment of Spec/Fragment.lean, c13_accepts_partial what its ids are read as; c13_out_without_parameters and c13_set_of_whats refute it for two unbounded families of ids; examples show the other gaps (names starting with a reserved word, trailing backslashes, classes without module).")
c("C27", "proved", t("c27_curry2partial c27_partials c27_partials_iff c27_binding_partial c27_reports_partial c27_curry_swapped"), "c27_partials(_iff) is the property for functools.partial. For chains that mix in toolz curries it holds if at most one of them has positional arguments (c27_binding_partial); otherwise the code reports them in the wrong order (c27_curry_swapped).")
c("C42", "proved", t("c42_call_dict"))
c("C43", "partial", t("c43_maybe_import_partial c43_single_partial c43_not_first c43_propagates c43_member_variants"), "False of the code: the loop over the variants has no break (misc.py:709), so the last importable variant wins (c43_not_first refutes the full statement whenever two variants can be imported). c43_single_partial proves it when at most one can; the rest of the statement is c43_maybe_import_partial.")
c("C44", "proved", t("c44_required c44_ensure c44_init"))
c("C37", "proved", t("c37_sort_whats c37_sort_whatids c37_missing orders_ints orders_strings"))
c("C39", "proved", t("c39_none c39_string c39_what c39_whatable c39_id_method c39_inspected c39_idempotent c39_only_none"))
c("C40", "proved", t("c40_to_dict c40_nonids_too c40_id2dict"))
c("C38", "proved", t("c38_match c38_monotone c38_self c38_bad_template c38_bad_id c38_unhashable c38_no_parameters"), "Values that are Whats agree if their names and out_names do (their parameters have flattened keys of their own unless recursive=False); the code also takes a What for the tuple of its name and out_name (Agree.likeTuple, an example shows it). The out_name of the ids themselves is not compared.")
c("C41", "proved", t("c41_unchanged c41_new_unchanged c41_disjoint c41_idempotent c41_total c41_oldid2what c41_same_as_new c41_parses_back c41_double_out c41_braces"), "Old-style syntax is specified in Old/Ast.lean (tokens, spacing, well-formedness). Nested names in double quotes that start with a reserved word, `set#` and out values that are not well-formed literals are converted to ids that do not parse back: the hypotheses of c41_parses_back.")
c("C46", "proved", t("c46_reparse c46_equal c46_normal_form c46_set_what"), "SaneEnv: repr of floats reads back, whatever <class '...'> finds is a class importable under its own name. c46_set_what shows the exception.")
c("C47", "proved", t("c47_tokens"), "Spec/Regex.lean gives the backtracking semantics of re.match; \\d is ASCII only (Python also takes other Unicode digits).")
c("C48", "proved", t("c48_attributes c48_sources c48_total c48_error c48_whatareyou getAttr_unique"), "Python's attribute access is specified in Spec/Attr.lean. __getattr__ hooks, metaclass attributes and data descriptors that do not give themselves when read through the class are not modelled.")
c("C49", "proved", t("c49_columns c49_succeeds c49_raises c49_unparsed c49_missing c49_default"), "A DataFrame is its named columns; index and dtypes are not modelled (pandas turns None among numbers into nan). A requested column called like the column of the ids overwrites it: excluded by hypothesis, shown in an example.")
c("C50", "proved", t("c50_path c50_compose c50_one c50_raises c50_unhashable c50_other"), "Paths of strings and integers; arrays and other subscriptable objects are not modelled.")
c("C51", "proved", t("c51_defaults c51_posts"))
c("C52", "proved", t("c52_text c52_defined c52_elements c52_no_text"), "The texts are specified in Spec/Text.lean. Dict subclasses with attributes, partials (C27) and whatable objects (C24-C26, C48) are not in this specification.")
c("C53", "proved", t("c53_freezes c53_call c53_positional c53_refused"), "toolz.curry and functools.partial are modelled in Curry.lean (trusted). Keyword arguments called add cannot be passed to padd.")
c("C54", "proved", t("c54_behaves c54_reports c54_accepts c54_again c54_partial_lost c54_inplace_confused"), "Not for decorating a decorated partial (c54_partial_lost: the configuration is forgotten) nor for in-place decoration of a closure over one function (c54_inplace_confused). whatfunc and toolz curries are not modelled here; that what() shares a dictionary is C23.")
c("C55", "proved", t("c55_live c55_total c55_object c55_class c55_accepts c55_error c55_again c55_same_attributes c55_excludes"), "With excludes that do not contain 'what' the method of a decorated object ends up in its configuration (c55_excludes). whatfunc and force_flag_as_whatami: C83. Callable objects and a slot called what are not modelled.")
c("C56", "proved", t("c56_iff c56_in_id c56_text c56_equal c56_layout c56_state"), "Assumed: no pickle is a suffix of another (shown satisfiable); digests have 32 characters. Arrays holding Python objects and coerce_mmap are not modelled.")
c("C57", "proved", t("c57_paths c57_subclasses c57_nodup c57_strict c57_defined"))
c("C58", "proved", t("c58_kept c58_given c58_forced c58_import c58_all c58_again"), "Method resolution orders are given, with the two facts about them in Resolved. A class that inherits a what from a base that comes later in its order loses it to the patched one (example).")
c("C59", "proved", t("c59_declared c59_params c59_nonids c59_distinct c59_tables c59_ids_differ c59_told c59_inspected c59_undeclared"), "get_params is what it returns or raises.")
c("C60", "proved", t("c60_choice c60_not_older"), "c60_not_older refutes the comment in the code.")
c("C61", "proved", t("c61_found c61_ignored c61_strict c61_total c61_forgotten"), "c61_forgotten: ignore_errors=False is not honoured below the first level. import_module is a function of the name; what walk_packages yields for a package is given.")
c("C62", "proved", t("c62_class c62_defined c62_hierarchy c62_iterator"), "Decorators given as an iterator are used up by the first class (c62_iterator).")
c("C63", "proved", t("c63_reads c63_exact c63_rejects c63_unambiguous"), "Spec/Meaning.lean says how syntax is spelt and what it means without functions of the parser. FindsClasses: what an import finds under a <class ...> is a class. The text of a float denotes what float() makes of it (Env.floatOf).")
c("C64", "proved", t("c64_is_whatable c64_accepts c64_error c64_accepted c64_stays c64_decorated c64_forced c64_refused c64_kept c64_unrelated c64_new"), "Method resolution orders are given, with the two facts about them in Resolved. whatfunc is a function; metaclasses have no attribute what.")
c("C65", "proved", t("c65_order c65_distinguishes c65_iff c65_bytes c65_sharing c65_collision c65_frozenset c65_partial_order c65_empty_array c65_swapped"), "The pickler of Python is modelled as far as these values need it (protocol 4, without frames): objects pickled by class and __dict__, without __reduce__ or slots of their own; arrays without Python objects. Findings: c65_sharing, c65_collision, c65_frozenset, c65_partial_order, c65_empty_array, c65_swapped.")
c("C66", "proved", t("c66_same c66_same_id c66_complete c66_without_pandas c66_import_error c66_dropped c66_dropped_all c66_has"), "A missing library is the stand-in of maybe_import (raises on any attribute); its plugin is then modelled as one that always raises ImportError (number 0 among the user's plugins).")
c("C67", "proved", t("c67_symm c67_trans c67_refl c67_whats c67_sets c67_dicts c67_not_ids"), "The right-hand side is a What (objects with attributes name, conf and out_name are not modelled). c67_symm assumes collections without doubles on one side (Python's invariant of sets and dicts), c67_trans nothing.")
c("C68", "proved", t("c68_rows c68_columns c68_cells c68_defined c68_history"), "pandas >= 1.0 (missing labels in .loc raise); its orders are arbitrary permutations; conversions of the values of a column to a common type are not modelled.")
c("C69", "proved", t("c69_keys c69_entries c69_defined c69_ids"), "The docstring promises a dict of strings to strings: fsource is a pair of lines and a number, and what is not given is None.")
c("C70", "proved", t("c70_fqn c70_use_class c70_errors c70_import c70_nested c70_distinct"), "The name attributes of the object and its class are given.")
c("C71", "proved", t("c71_exact c71_sorted c71_defined"), "init_argspec does not fail on classes; the rest of the report is not used.")
c("C72", "proved", t("c72_add c72_history"), "On all configurations that show in ids (Showable); sameness is that of C90 (SameToIds), which on the fragment of C08 is sameness up to order (c90_printable).")
c("C73", "proved", t("c73_told c73_expression"), "repr of the built-in types is modelled after CPython; which characters beyond ASCII are printable is arbitrary. The order of a set is that of its list in the model. Other objects inside have no modelled repr.")
c("C74", "proved", t("c74_lookup c74_get c74_flatten"), "Equality counts a nan as equal to itself, as `==` of collections does for the same object.")
c("C75", "proved", t("c75_sort c75_match c75_columns c75_columns_succeeds"), "On the fragment of C06 without nan; match_whatids without collections_too; `<` on values is any relation that does not tell equal values apart.")
c("C76", "proved", t("c76_done c76_succeeds c76_raises c76_retry c76_again c76_what c76_repeated_kfold c76_check c76_check_passes c76_check_probes c76_check_raises"), "What imports give or raise, the method resolution orders and what cls() makes are arbitrary; an import that fails has no effect of its own.")
c("C77", "proved", t("c77_text c77_id c77_read c77_again c77_same_id"), "Chains of partials and toolz curries have a stand-in if at most one of them has positional arguments (c27_curry_swapped shows why) or all are plain partials. Reading back is on the fragment of C06 (c77_read) and C07 (c77_again); that two configurations with the same id are seen as the same is C08 for the stand-ins.")
c("C78", "proved", t("c78_like c78_decorated c78_inspects c78_raises c78_callable c78_mixin c78_function c78_call c78_call_raises"), "what() methods of the user's own are C55/C64's matter; a __name__ that is no string stands as TypeError.")
c("C79", "proved", t("c79_loads c79_ids c79_any c79_no_braces c79_exponential c79_at_least"), "Work is the number of calls of a terminal's match; arpeggio is used without memoization, its default. c79_ids is on the fragment of C06; the visitor's work is not counted.")
c("C80", "proved", t("c80_register c80_remove_nick c80_remove_what c80_history c80_back c80_nick_or_id c80_tells_apart c80_confused"), "On all configurations that show in ids (Showable; the fragment of C06 for c80_back); sameness is that of C90 (SameToIds). Nicknames are strings; remove with both arguments is C31.")
c("C81", "proved", t("c81_call c81_frame c81_untouched c81_reachable c81_shared c81_new c81_override c81_get c81_record c81_list c81_copy c81_add c81_not_independent"), "A postprocessor returns the dict it was given or a new one, not one that something else refers to.")
c("C82", "proved", t("c82_limit c82_enough c82_equation c82_first_match c82_talk c82_unique c82_bound c82_returns c82_circle c82_conservative c82_declining c82_after c82_own c82_own_id"), "Recursion limit counted in nested calls of build_string; user plugins do not catch RecursionError, nor change the chain; that is_whatable does catch it, which matters when frames are counted, is C92.")
c("C83", "proved", t("c83_is_whatable c83_accepts c83_decorated c83_after c83_marks c83_force c83_refused c83_unrelated c83_own c83_class c83_stays c83_stuck c83_new"), "Properties called what give no method and have no setter; bound methods take no attributes (Python 3).")
c("C84", "proved", t("c84_says c84_classes c84_partial_misfit c84_text c84_tells_apart c84_blind"), "Options: add_class off and the default prefix, so the descriptors of the built-in types with two underscores never show. c84_blind is finding 44.")
c("C85", "proved", t("c85_accepts c85_what c85_history c85_not_checked c85_whatareyou c85_then_default"), "Functions are trees: that decorating in place also changes other functions that captured the same one is not modelled. c85_not_checked and c85_whatareyou (not in place) are finding 45.")
c("C86", "proved", t("c86_kept c86_returned c86_quiet c86_once c86_conservative c86_history c86_overwritten c86_no_rollback"), "The iterables given to add are collections; user code does not write to the dicts in the registry (C81 has that). c86_overwritten and c86_no_rollback are finding 46; c86_conservative and c86_history link to C32-C36 and C45.")
c("C87", "proved", t("c87_text c87_id c87_simple c87_needed"), "User plugins are as in C82: conversations with build_string. Chains from which other plugins of whatami are dropped are left out: str() of collections is not modelled.")
c("C88", "proved", t("c88_text c88_plain c88_id c88_same_id c88_read c88_tells c88_raises c88_bound"), "Objects are trees: with deep=True an object that has itself as an attribute recurses for ever in the code. Objects in function position of a partial are not replaced. str() of objects is data of the model, as for the default plugin.")
c("C89", "proved", t("c89_register c89_add c89_add_refuses c89_column_refuses c89_unique c89_call_dict c89_member c89_object c89_cells"), "For remove see C29, C31; for whatable on classes C64; for call2what C78. If several columns or postprocessors would raise, the theorem names the reasons but not the order.")
c("C90", "proved", t("c90_same_id c90_seen c90_same_to_ids c90_printable c90_strings c90_parts c90_full"), "C08 is the same on the fragment that reads back, without the last two of the four differences.")
c("C91", "proved", t("c91_read c91_back c91_stays c91_again c91_seen"), "c91_read: exactly what each id is read as (iff, against the inductive ReadAs). c91_back/c91_stays: comes back as it was iff legible and Stays. c91_again: what was read stays. c91_seen: for values that are shown as data (C77).")
c("C92", "proved", t("c92_enough c92_depth c92_data c92_without c92_silent c92_cut c92_right c92_collide c92_unstable"), "The numbers of frames are parameters; the example has those read off the code for CPython 3 (4 between two calls of build_string through a whatable object, at least 9 for is_whatable to get to the bottom of inspect.getmembers, at most 3 for answering c()). Values are trees: an object that refers back to itself looks, to any number of frames, like a chain longer than fits, so c92_cut is also what happens to it.")
c("C93", "proved", t("c93_runs_repr c93_reads c93_otherwise c93_text_irrelevant c93_plain c93_what c93_lost c93_raises c93_unset c93_ordered c93_dict c93_self"), "repr, str and what reading attributes raises are functions of the value: no side effects. In c93_plain the function of a partial is callable, as Python makes sure.")
c("C94", "proved", t("c94_same supported_positionable c94_from_id c94_renamed c94_not_from_id c94_nonids"), "Texts before trimming; maxlength is C05.")
c("C95", "proved", t("c95_alone c95_apart c95_nothing_else c95_interrupted c95_half_done c95_half c95_sided c95_half_reset c95_stale c95_no_removal c95_race c95_race_reset"), "Steps are accesses to the attributes and dictionaries, atomic in CPython for keys that are strings; what2id, which the calls run first, does not use the registry. c95_alone relates the steps to the model of C28-C31.")
c("C96", "proved", t("c96_alone c96_any c96_later c96_apart c96_race"), "Settings of the recorder do not change meanwhile; the commit (OrderedDict.update with ids that are strings or integers) is one step in CPython. c96_alone relates the steps to the model of C32-C36.")
c("C97", "proved", t("c97_alone c97_any c97_unique c97_twice c97_lost"), "Removal from a list and the assignment of the attribute are one step each in CPython. c97_alone relates the steps to the model of the plugin manager.")
c("C98", "proved", t("c98_strings c98_order c98_mixed c98_unordered c98_one_kind c98_two_kinds c98_frozensets c98_texts c98_nonid"), "`sorted` is any program that asks for comparisons and sorts stably whenever these are a strict weak order (insertion sort is proved to be one). Only the first level of the configuration has such keys. Keys of built-in types: strings, integers, booleans, None, NaN, frozensets of integers.")
c("C99", "proved", t("c99_sort_whats c99_sort_whatids c99_scalars"), "Values that are missing raise before (C37). What `sorted` is: as in C98.")
c("C100", "proved", t("c100_sort c100_hash c100_order c100_plain c100_some_pairs"), "As in C65: no object met twice (for c100_order), hashes of keys of several kinds do not collide. Where only some pairs of kinds cannot be compared (Fraction, int, Decimal), the hash does depend on the sort and on the order: c100_some_pairs, finding 59.")
c("C101", "proved", t("c101_each c101_alone c101_unaffected c101_finishes c101_mixture"), "A step of the thread that describes is one read of cls.PLUGINS; user plugins and described objects do not depend on other threads. c101_mixture is finding 60.")
c("C102", "proved", t("c102_plain c102_coerced c102_iff c102_inside c102_weak"), "As in C65: sorting is modelled by an insertion sort, no object met twice and all dicts and sets sortable (for c102_iff), comparing keys makes no difference between memory maps and arrays inside them.")
c("C103", "proved", t("c103_raises c103_finite c103_iff c103_same c103_tree c103_unfolds c103_loop c103_silent c103_object c103_unstable"), "Cells: None, booleans, numbers, strings, tuples, lists, sets, dicts, What and instances of @whatable classes; no subclasses of containers, partials, functions or arrays. Default plugins. Frames as in C92.")
c("C104", "proved", t("c104_fine c104_named c104_bare c104_never c104_hidden c104_order"), "c104_named and c104_bare: no object is there twice. c104_named: nothing inside raises TypeError; c104_bare: no dicts nor instances inside. c104_order: the hashes of keys do not collide. Keys of dicts are strings; classes of instances are found under their names.")
c("C105", "proved", t("c105_stack c105_ends c105_same c105_tells c105_iff c105_tree"), "Keys of dicts are strings; no tuples, sets or arrays among the parts. NoClash: the digests of the two pickles are not equal without the pickles being so. The stack counts nested values (a constant number of calls each). c105_tree: the tree is as in C104.")
c("C106", "proved", t("c106_equal c106_differ c106_stack c106_raises c106_ends c106_iff c106_self c106_copy c106_deepcopy c106_deepcopy_fine c106_copy_deep c106_order c106_tree"), "Keys of dicts are strings; no sets or instances among the parts. The stack counts nested comparisons (a constant number of calls each). c106_deepcopy: deepcopy of any value; c106_copy_deep: copy(deep=True), whose own What is not the one inside the copied dict.")
c("C107", "proved", t("c107_exact c107_order c107_ends c107_raises c107_flat c107_tree"), "Keys of dicts are strings. A key is the list of its steps, also when it has one. Values are given by their addresses. c107_exact and c107_order together determine the list.")
c("C108", "proved", t("c108_ends c108_tree c108_told c108_tells c108_loops c108_confused"), "What cannot contain a list or configuration (sets too) is given as a value, and so are keys of dicts. Python's repr of a container that is being shown already is (...), [...] or {...}; What.__repr__ itself has no such guard, its conf has.")
