{
 "claims": [
  {
   "property": "C01",
   "status": "proved",
   "theorems": [
    "Whatami.c01_insertion_order"
   ],
   "note": ""
  },
  {
   "property": "C02",
   "status": "proved",
   "theorems": [
    "Whatami.c02_order",
    "Whatami.c02_order_value",
    "Whatami.c02_order_nonids"
   ],
   "note": ""
  },
  {
   "property": "C03",
   "status": "proved",
   "theorems": [
    "Whatami.c03_nonids",
    "Whatami.c03_nonids_any_chain"
   ],
   "note": ""
  },
  {
   "property": "C04",
   "status": "proved",
   "theorems": [
    "Whatami.c04_shape",
    "Whatami.c04_defined"
   ],
   "note": ""
  },
  {
   "property": "C05",
   "status": "proved",
   "theorems": [
    "Whatami.c05_maxlength",
    "Whatami.c05_equal",
    "Whatami.c05_length",
    "Whatami.c05_positional",
    "Whatami.c05_positional_length",
    "Whatami.c05_positional_equal"
   ],
   "note": ""
  },
  {
   "property": "C06",
   "status": "proved",
   "theorems": [
    "Whatami.c06_round_trip",
    "Whatami.c06_round_trip_hidden",
    "Whatami.c06_equal"
   ],
   "note": "The documented limits are the hypotheses PrintableWhat and LoadableWhat (Spec/Fragment.lean). c06_round_trip_hidden adds quotes, non-id keys and frozensets and says what they change; c06_equal is the same with What.__eq__."
  },
  {
   "property": "C07",
   "status": "proved",
   "theorems": [
    "Whatami.c07_id_of_parsed"
   ],
   "note": "Without frozensets: they come back as sets, whose ids differ (example beside the theorem)."
  },
  {
   "property": "C08",
   "status": "proved",
   "theorems": [
    "Whatami.c08_injective",
    "Whatami.c08_injective_hidden",
    "Whatami.c08_iff"
   ],
   "note": "The types int, float and complex are not in the fragment: their text is that of a What of that name (example beside the theorem)."
  },
  {
   "property": "C09",
   "status": "proved",
   "theorems": [
    "Whatami.c09_quoted",
    "Whatami.c09_collisions",
    "Whatami.c09_nested"
   ],
   "note": ""
  },
  {
   "property": "C10",
   "status": "proved",
   "theorems": [
    "Whatami.c10_terminates",
    "Whatami.c10_terminates_rule",
    "Whatami.c10_progress",
    "Whatami.c10_no_shape_error"
   ],
   "note": ""
  },
  {
   "property": "C100",
   "status": "proved",
   "theorems": [
    "Whatami.c100_sort",
    "Whatami.c100_hash",
    "Whatami.c100_order",
    "Whatami.c100_plain",
    "Whatami.c100_some_pairs"
   ],
   "note": "As in C65: no object met twice (for c100_order), hashes of keys of several kinds do not collide. Where only some pairs of kinds cannot be compared (Fraction, int, Decimal), the hash does depend on the sort and on the order: c100_some_pairs, finding 59."
  },
  {
   "property": "C101",
   "status": "proved",
   "theorems": [
    "Whatami.c101_each",
    "Whatami.c101_alone",
    "Whatami.c101_unaffected",
    "Whatami.c101_finishes",
    "Whatami.c101_mixture"
   ],
   "note": "A step of the thread that describes is one read of cls.PLUGINS; user plugins and described objects do not depend on other threads. c101_mixture is finding 60."
  },
  {
   "property": "C102",
   "status": "proved",
   "theorems": [
    "Whatami.c102_plain",
    "Whatami.c102_coerced",
    "Whatami.c102_iff",
    "Whatami.c102_inside",
    "Whatami.c102_weak"
   ],
   "note": "As in C65: sorting is modelled by an insertion sort, no object met twice and all dicts and sets sortable (for c102_iff), comparing keys makes no difference between memory maps and arrays inside them."
  },
  {
   "property": "C103",
   "status": "proved",
   "theorems": [
    "Whatami.c103_raises",
    "Whatami.c103_finite",
    "Whatami.c103_iff",
    "Whatami.c103_same",
    "Whatami.c103_tree",
    "Whatami.c103_unfolds",
    "Whatami.c103_loop",
    "Whatami.c103_silent",
    "Whatami.c103_object",
    "Whatami.c103_unstable"
   ],
   "note": "Cells: None, booleans, numbers, strings, tuples, lists, sets, dicts, What and instances of @whatable classes; no subclasses of containers, partials, functions or arrays. Default plugins. Frames as in C92."
  },
  {
   "property": "C104",
   "status": "proved",
   "theorems": [
    "Whatami.c104_fine",
    "Whatami.c104_named",
    "Whatami.c104_bare",
    "Whatami.c104_never",
    "Whatami.c104_hidden",
    "Whatami.c104_order"
   ],
   "note": "c104_named and c104_bare: no object is there twice. c104_named: nothing inside raises TypeError; c104_bare: no dicts nor instances inside. c104_order: the hashes of keys do not collide. Keys of dicts are strings; classes of instances are found under their names."
  },
  {
   "property": "C105",
   "status": "proved",
   "theorems": [
    "Whatami.c105_stack",
    "Whatami.c105_ends",
    "Whatami.c105_same",
    "Whatami.c105_tells",
    "Whatami.c105_iff",
    "Whatami.c105_tree"
   ],
   "note": "Keys of dicts are strings; no tuples, sets or arrays among the parts. NoClash: the digests of the two pickles are not equal without the pickles being so. The stack counts nested values (a constant number of calls each). c105_tree: the tree is as in C104."
  },
  {
   "property": "C106",
   "status": "proved",
   "theorems": [
    "Whatami.c106_equal",
    "Whatami.c106_differ",
    "Whatami.c106_stack",
    "Whatami.c106_raises",
    "Whatami.c106_ends",
    "Whatami.c106_iff",
    "Whatami.c106_self",
    "Whatami.c106_copy",
    "Whatami.c106_deepcopy",
    "Whatami.c106_deepcopy_fine",
    "Whatami.c106_copy_deep",
    "Whatami.c106_order",
    "Whatami.c106_tree"
   ],
   "note": "Keys of dicts are strings; no sets or instances among the parts. The stack counts nested comparisons (a constant number of calls each). c106_deepcopy: deepcopy of any value; c106_copy_deep: copy(deep=True), whose own What is not the one inside the copied dict."
  },
  {
   "property": "C107",
   "status": "proved",
   "theorems": [
    "Whatami.c107_exact",
    "Whatami.c107_order",
    "Whatami.c107_ends",
    "Whatami.c107_raises",
    "Whatami.c107_flat",
    "Whatami.c107_tree"
   ],
   "note": "Keys of dicts are strings. A key is the list of its steps, also when it has one. Values are given by their addresses. c107_exact and c107_order together determine the list."
  },
  {
   "property": "C108",
   "status": "proved",
   "theorems": [
    "Whatami.c108_ends",
    "Whatami.c108_tree",
    "Whatami.c108_told",
    "Whatami.c108_tells",
    "Whatami.c108_loops",
    "Whatami.c108_confused"
   ],
   "note": "What cannot contain a list or configuration (sets too) is given as a value, and so are keys of dicts. Python's repr of a container that is being shown already is (...), [...] or {...}; What.__repr__ itself has no such guard, its conf has."
  },
  {
   "property": "C11",
   "status": "proved",
   "theorems": [
    "Whatami.c11_whitespace",
    "Whatami.c11_layouts"
   ],
   "note": "Except that 'set ()' and 'frozenset ()' with a blank are a nested id while 'set()' is the empty set: the theorems exclude those tokens, an example shows why."
  },
  {
   "property": "C12",
   "status": "proved",
   "theorems": [
    "Whatami.c12_well_named",
    "Whatami.c12_well_named_classes"
   ],
   "note": "Whats inside an object that a <class '...'> made the parser import are not the parser's: c12_well_named allows for them, c12_well_named_classes rules them out."
  },
  {
   "property": "C13",
   "status": "partial",
   "theorems": [
    "Whatami.c13_accepts_partial",
    "Whatami.c13_full",
    "Whatami.c13_syntax",
    "Whatami.c13_seen",
    "Whatami.c13_seen_syntax",
    "Whatami.c13_iff",
    "Whatami.c13_out_without_parameters",
    "Whatami.c13_set_of_whats"
   ],
   "note": "False of the code. c13_full says exactly which ids are accepted, for all Whats with identifier names and keys and plain values, whatever their strings (Spec/Legible.lean: legible strings and names; Spec/Accepted.lean: classes that can be looked up, hashable set elements and keys, out_names with parameters); c13_syntax which of the others are syntax errors. c13_seen(_syntax) is the same for values that are shown as Whats or data standing for them (objects, functions, partials, arrays, generators, subclasses of builtins; Spec/StandIn.lean, C77). c13_iff is the special case of the fragment of Spec/Fragment.lean, c13_accepts_partial what its ids are read as; c13_out_without_parameters and c13_set_of_whats refute it for two unbounded families of ids; examples show the other gaps (names starting with a reserved word, trailing backslashes, classes without module)."
  },
  {
   "property": "C14",
   "status": "proved",
   "theorems": [
    "Whatami.c14_first_match",
    "Whatami.c14_never_consulted"
   ],
   "note": ""
  },
  {
   "property": "C15",
   "status": "proved",
   "theorems": [
    "Whatami.c15_declining",
    "Whatami.c15_after_capture_all",
    "Whatami.c15_declining_id"
   ],
   "note": ""
  },
  {
   "property": "C16",
   "status": "proved",
   "theorems": [
    "Whatami.c16_insert",
    "Whatami.c16_drop",
    "Whatami.c16_failure",
    "Whatami.c16_drop_insert",
    "Whatami.c16_reset",
    "Whatami.c16_nodup"
   ],
   "note": ""
  },
  {
   "property": "C17",
   "status": "proved",
   "theorems": [
    "Whatami.c17_never_none",
    "Whatami.c17_default",
    "Whatami.c17_exactly",
    "Whatami.c17_raises"
   ],
   "note": "What shows in a value is specified in Spec/Shown.lean."
  },
  {
   "property": "C18",
   "status": "proved",
   "theorems": [
    "Whatami.c18_flatten",
    "Whatami.c18_flatten_total"
   ],
   "note": ""
  },
  {
   "property": "C19",
   "status": "proved",
   "theorems": [
    "Whatami.c19_paths",
    "Whatami.c19_flat",
    "Whatami.c19_recursive_adds",
    "Whatami.c19_order"
   ],
   "note": ""
  },
  {
   "property": "C20",
   "status": "proved",
   "theorems": [
    "Whatami.c20_get",
    "Whatami.c20_get_name"
   ],
   "note": ""
  },
  {
   "property": "C21",
   "status": "proved",
   "theorems": [
    "Whatami.c21_frame",
    "Whatami.c21_copy",
    "Whatami.c21_copy_apart",
    "Whatami.c21_deep_apart",
    "Whatami.c21_original_apart",
    "Whatami.c21_set_copy",
    "Whatami.c21_history",
    "Whatami.c21_reachable_ok",
    "Whatami.c21_stands",
    "Whatami.c21_one",
    "Whatami.c21_id",
    "Whatami.c21_defined",
    "Whatami.c21_possible"
   ],
   "note": ""
  },
  {
   "property": "C22",
   "status": "proved",
   "theorems": [
    "Whatami.c22_whatadd"
   ],
   "note": ""
  },
  {
   "property": "C23",
   "status": "partial",
   "theorems": [
    "Whatami.c23_no_memory_partial",
    "Whatami.c23_leak",
    "Whatami.c23_has_memory"
   ],
   "note": "False of the code: whatable() binds one dictionary in partial(What, conf=config_dict) (what.py:518). c23_has_memory refutes the full statement (NoMemory), c23_leak says exactly what leaks, c23_no_memory_partial proves the rest: no history without in-place writes to that dictionary changes later reports."
  },
  {
   "property": "C24",
   "status": "proved",
   "theorems": [
    "Whatami.c24_private",
    "Whatami.c24_private_object",
    "Whatami.c24_private_defaults"
   ],
   "note": ""
  },
  {
   "property": "C25",
   "status": "proved",
   "theorems": [
    "Whatami.c25_exact",
    "Whatami.c25_empty_affix"
   ],
   "note": ""
  },
  {
   "property": "C26",
   "status": "proved",
   "theorems": [
    "Whatami.c26_precedence",
    "Whatami.c26_keys"
   ],
   "note": ""
  },
  {
   "property": "C27",
   "status": "proved",
   "theorems": [
    "Whatami.c27_curry2partial",
    "Whatami.c27_partials",
    "Whatami.c27_partials_iff",
    "Whatami.c27_binding_partial",
    "Whatami.c27_reports_partial",
    "Whatami.c27_curry_swapped"
   ],
   "note": "c27_partials(_iff) is the property for functools.partial. For chains that mix in toolz curries it holds if at most one of them has positional arguments (c27_binding_partial); otherwise the code reports them in the wrong order (c27_curry_swapped)."
  },
  {
   "property": "C28",
   "status": "proved",
   "theorems": [
    "Whatami.c28_bijection",
    "Whatami.c28_injective"
   ],
   "note": ""
  },
  {
   "property": "C29",
   "status": "proved",
   "theorems": [
    "Whatami.c29_register",
    "Whatami.c29_remove",
    "Whatami.c29_lookups",
    "Whatami.c29_reset"
   ],
   "note": ""
  },
  {
   "property": "C30",
   "status": "proved",
   "theorems": [
    "Whatami.c30_failure"
   ],
   "note": ""
  },
  {
   "property": "C31",
   "status": "partial",
   "theorems": [
    "Whatami.c31_mismatch_partial",
    "Whatami.c31_always_raises",
    "Whatami.c31_iff"
   ],
   "note": "False of the code: remove looks the nickname up among the ids (registry.py:73). c31_mismatch_partial proves the second half (mismatch raises, nothing changes); c31_always_raises and c31_iff prove that the first half holds exactly when the nickname equals the id."
  },
  {
   "property": "C32",
   "status": "proved",
   "theorems": [
    "Whatami.c32_atomic"
   ],
   "note": ""
  },
  {
   "property": "C33",
   "status": "proved",
   "theorems": [
    "Whatami.c33_single",
    "Whatami.c33_batch",
    "Whatami.c33_add",
    "Whatami.c33_history"
   ],
   "note": ""
  },
  {
   "property": "C34",
   "status": "proved",
   "theorems": [
    "Whatami.c34_contents"
   ],
   "note": ""
  },
  {
   "property": "C35",
   "status": "proved",
   "theorems": [
    "Whatami.c34_contents",
    "Whatami.c35_gets_total",
    "Whatami.c35_succeeds",
    "Whatami.c35_reserved",
    "Whatami.c35_nothing",
    "Whatami.c35_what"
   ],
   "note": ""
  },
  {
   "property": "C36",
   "status": "proved",
   "theorems": [
    "Whatami.c36_get",
    "Whatami.c36_get_one",
    "Whatami.c36_unique",
    "Whatami.c36_unique_total"
   ],
   "note": ""
  },
  {
   "property": "C37",
   "status": "proved",
   "theorems": [
    "Whatami.c37_sort_whats",
    "Whatami.c37_sort_whatids",
    "Whatami.c37_missing",
    "Whatami.orders_ints",
    "Whatami.orders_strings"
   ],
   "note": ""
  },
  {
   "property": "C38",
   "status": "proved",
   "theorems": [
    "Whatami.c38_match",
    "Whatami.c38_monotone",
    "Whatami.c38_self",
    "Whatami.c38_bad_template",
    "Whatami.c38_bad_id",
    "Whatami.c38_unhashable",
    "Whatami.c38_no_parameters"
   ],
   "note": "Values that are Whats agree if their names and out_names do (their parameters have flattened keys of their own unless recursive=False); the code also takes a What for the tuple of its name and out_name (Agree.likeTuple, an example shows it). The out_name of the ids themselves is not compared."
  },
  {
   "property": "C39",
   "status": "proved",
   "theorems": [
    "Whatami.c39_none",
    "Whatami.c39_string",
    "Whatami.c39_what",
    "Whatami.c39_whatable",
    "Whatami.c39_id_method",
    "Whatami.c39_inspected",
    "Whatami.c39_idempotent",
    "Whatami.c39_only_none"
   ],
   "note": ""
  },
  {
   "property": "C40",
   "status": "proved",
   "theorems": [
    "Whatami.c40_to_dict",
    "Whatami.c40_nonids_too",
    "Whatami.c40_id2dict"
   ],
   "note": ""
  },
  {
   "property": "C41",
   "status": "proved",
   "theorems": [
    "Whatami.c41_unchanged",
    "Whatami.c41_new_unchanged",
    "Whatami.c41_disjoint",
    "Whatami.c41_idempotent",
    "Whatami.c41_total",
    "Whatami.c41_oldid2what",
    "Whatami.c41_same_as_new",
    "Whatami.c41_parses_back",
    "Whatami.c41_double_out",
    "Whatami.c41_braces"
   ],
   "note": "Old-style syntax is specified in Old/Ast.lean (tokens, spacing, well-formedness). Nested names in double quotes that start with a reserved word, `set#` and out values that are not well-formed literals are converted to ids that do not parse back: the hypotheses of c41_parses_back."
  },
  {
   "property": "C42",
   "status": "proved",
   "theorems": [
    "Whatami.c42_call_dict"
   ],
   "note": ""
  },
  {
   "property": "C43",
   "status": "partial",
   "theorems": [
    "Whatami.c43_maybe_import_partial",
    "Whatami.c43_single_partial",
    "Whatami.c43_not_first",
    "Whatami.c43_propagates",
    "Whatami.c43_member_variants"
   ],
   "note": "False of the code: the loop over the variants has no break (misc.py:709), so the last importable variant wins (c43_not_first refutes the full statement whenever two variants can be imported). c43_single_partial proves it when at most one can; the rest of the statement is c43_maybe_import_partial."
  },
  {
   "property": "C44",
   "status": "proved",
   "theorems": [
    "Whatami.c44_required",
    "Whatami.c44_ensure",
    "Whatami.c44_init"
   ],
   "note": ""
  },
  {
   "property": "C45",
   "status": "proved",
   "theorems": [
    "Whatami.c45_posts"
   ],
   "note": ""
  },
  {
   "property": "C46",
   "status": "proved",
   "theorems": [
    "Whatami.c46_reparse",
    "Whatami.c46_equal",
    "Whatami.c46_normal_form",
    "Whatami.c46_set_what"
   ],
   "note": "SaneEnv: repr of floats reads back, whatever <class '...'> finds is a class importable under its own name. c46_set_what shows the exception."
  },
  {
   "property": "C47",
   "status": "proved",
   "theorems": [
    "Whatami.c47_tokens"
   ],
   "note": "Spec/Regex.lean gives the backtracking semantics of re.match; \\d is ASCII only (Python also takes other Unicode digits)."
  },
  {
   "property": "C48",
   "status": "proved",
   "theorems": [
    "Whatami.c48_attributes",
    "Whatami.c48_sources",
    "Whatami.c48_total",
    "Whatami.c48_error",
    "Whatami.c48_whatareyou",
    "Whatami.getAttr_unique"
   ],
   "note": "Python's attribute access is specified in Spec/Attr.lean. __getattr__ hooks, metaclass attributes and data descriptors that do not give themselves when read through the class are not modelled."
  },
  {
   "property": "C49",
   "status": "proved",
   "theorems": [
    "Whatami.c49_columns",
    "Whatami.c49_succeeds",
    "Whatami.c49_raises",
    "Whatami.c49_unparsed",
    "Whatami.c49_missing",
    "Whatami.c49_default"
   ],
   "note": "A DataFrame is its named columns; index and dtypes are not modelled (pandas turns None among numbers into nan). A requested column called like the column of the ids overwrites it: excluded by hypothesis, shown in an example."
  },
  {
   "property": "C50",
   "status": "proved",
   "theorems": [
    "Whatami.c50_path",
    "Whatami.c50_compose",
    "Whatami.c50_one",
    "Whatami.c50_raises",
    "Whatami.c50_unhashable",
    "Whatami.c50_other"
   ],
   "note": "Paths of strings and integers; arrays and other subscriptable objects are not modelled."
  },
  {
   "property": "C51",
   "status": "proved",
   "theorems": [
    "Whatami.c51_defaults",
    "Whatami.c51_posts"
   ],
   "note": ""
  },
  {
   "property": "C52",
   "status": "proved",
   "theorems": [
    "Whatami.c52_text",
    "Whatami.c52_defined",
    "Whatami.c52_elements",
    "Whatami.c52_no_text"
   ],
   "note": "The texts are specified in Spec/Text.lean. Dict subclasses with attributes, partials (C27) and whatable objects (C24-C26, C48) are not in this specification."
  },
  {
   "property": "C53",
   "status": "proved",
   "theorems": [
    "Whatami.c53_freezes",
    "Whatami.c53_call",
    "Whatami.c53_positional",
    "Whatami.c53_refused"
   ],
   "note": "toolz.curry and functools.partial are modelled in Curry.lean (trusted). Keyword arguments called add cannot be passed to padd."
  },
  {
   "property": "C54",
   "status": "proved",
   "theorems": [
    "Whatami.c54_behaves",
    "Whatami.c54_reports",
    "Whatami.c54_accepts",
    "Whatami.c54_again",
    "Whatami.c54_partial_lost",
    "Whatami.c54_inplace_confused"
   ],
   "note": "Not for decorating a decorated partial (c54_partial_lost: the configuration is forgotten) nor for in-place decoration of a closure over one function (c54_inplace_confused). whatfunc and toolz curries are not modelled here; that what() shares a dictionary is C23."
  },
  {
   "property": "C55",
   "status": "proved",
   "theorems": [
    "Whatami.c55_live",
    "Whatami.c55_total",
    "Whatami.c55_object",
    "Whatami.c55_class",
    "Whatami.c55_accepts",
    "Whatami.c55_error",
    "Whatami.c55_again",
    "Whatami.c55_same_attributes",
    "Whatami.c55_excludes"
   ],
   "note": "With excludes that do not contain 'what' the method of a decorated object ends up in its configuration (c55_excludes). whatfunc and force_flag_as_whatami: C83. Callable objects and a slot called what are not modelled."
  },
  {
   "property": "C56",
   "status": "proved",
   "theorems": [
    "Whatami.c56_iff",
    "Whatami.c56_in_id",
    "Whatami.c56_text",
    "Whatami.c56_equal",
    "Whatami.c56_layout",
    "Whatami.c56_state"
   ],
   "note": "Assumed: no pickle is a suffix of another (shown satisfiable); digests have 32 characters. Arrays holding Python objects and coerce_mmap are not modelled."
  },
  {
   "property": "C57",
   "status": "proved",
   "theorems": [
    "Whatami.c57_paths",
    "Whatami.c57_subclasses",
    "Whatami.c57_nodup",
    "Whatami.c57_strict",
    "Whatami.c57_defined"
   ],
   "note": ""
  },
  {
   "property": "C58",
   "status": "proved",
   "theorems": [
    "Whatami.c58_kept",
    "Whatami.c58_given",
    "Whatami.c58_forced",
    "Whatami.c58_import",
    "Whatami.c58_all",
    "Whatami.c58_again"
   ],
   "note": "Method resolution orders are given, with the two facts about them in Resolved. A class that inherits a what from a base that comes later in its order loses it to the patched one (example)."
  },
  {
   "property": "C59",
   "status": "proved",
   "theorems": [
    "Whatami.c59_declared",
    "Whatami.c59_params",
    "Whatami.c59_nonids",
    "Whatami.c59_distinct",
    "Whatami.c59_tables",
    "Whatami.c59_ids_differ",
    "Whatami.c59_told",
    "Whatami.c59_inspected",
    "Whatami.c59_undeclared"
   ],
   "note": "get_params is what it returns or raises."
  },
  {
   "property": "C60",
   "status": "proved",
   "theorems": [
    "Whatami.c60_choice",
    "Whatami.c60_not_older"
   ],
   "note": "c60_not_older refutes the comment in the code."
  },
  {
   "property": "C61",
   "status": "proved",
   "theorems": [
    "Whatami.c61_found",
    "Whatami.c61_ignored",
    "Whatami.c61_strict",
    "Whatami.c61_total",
    "Whatami.c61_forgotten"
   ],
   "note": "c61_forgotten: ignore_errors=False is not honoured below the first level. import_module is a function of the name; what walk_packages yields for a package is given."
  },
  {
   "property": "C62",
   "status": "proved",
   "theorems": [
    "Whatami.c62_class",
    "Whatami.c62_defined",
    "Whatami.c62_hierarchy",
    "Whatami.c62_iterator"
   ],
   "note": "Decorators given as an iterator are used up by the first class (c62_iterator)."
  },
  {
   "property": "C63",
   "status": "proved",
   "theorems": [
    "Whatami.c63_reads",
    "Whatami.c63_exact",
    "Whatami.c63_rejects",
    "Whatami.c63_unambiguous"
   ],
   "note": "Spec/Meaning.lean says how syntax is spelt and what it means without functions of the parser. FindsClasses: what an import finds under a <class ...> is a class. The text of a float denotes what float() makes of it (Env.floatOf)."
  },
  {
   "property": "C64",
   "status": "proved",
   "theorems": [
    "Whatami.c64_is_whatable",
    "Whatami.c64_accepts",
    "Whatami.c64_error",
    "Whatami.c64_accepted",
    "Whatami.c64_stays",
    "Whatami.c64_decorated",
    "Whatami.c64_forced",
    "Whatami.c64_refused",
    "Whatami.c64_kept",
    "Whatami.c64_unrelated",
    "Whatami.c64_new"
   ],
   "note": "Method resolution orders are given, with the two facts about them in Resolved. whatfunc is a function; metaclasses have no attribute what."
  },
  {
   "property": "C65",
   "status": "proved",
   "theorems": [
    "Whatami.c65_order",
    "Whatami.c65_distinguishes",
    "Whatami.c65_iff",
    "Whatami.c65_bytes",
    "Whatami.c65_sharing",
    "Whatami.c65_collision",
    "Whatami.c65_frozenset",
    "Whatami.c65_partial_order",
    "Whatami.c65_empty_array",
    "Whatami.c65_swapped"
   ],
   "note": "The pickler of Python is modelled as far as these values need it (protocol 4, without frames): objects pickled by class and __dict__, without __reduce__ or slots of their own; arrays without Python objects. Findings: c65_sharing, c65_collision, c65_frozenset, c65_partial_order, c65_empty_array, c65_swapped."
  },
  {
   "property": "C66",
   "status": "proved",
   "theorems": [
    "Whatami.c66_same",
    "Whatami.c66_same_id",
    "Whatami.c66_complete",
    "Whatami.c66_without_pandas",
    "Whatami.c66_import_error",
    "Whatami.c66_dropped",
    "Whatami.c66_dropped_all",
    "Whatami.c66_has"
   ],
   "note": "A missing library is the stand-in of maybe_import (raises on any attribute); its plugin is then modelled as one that always raises ImportError (number 0 among the user's plugins)."
  },
  {
   "property": "C67",
   "status": "proved",
   "theorems": [
    "Whatami.c67_symm",
    "Whatami.c67_trans",
    "Whatami.c67_refl",
    "Whatami.c67_whats",
    "Whatami.c67_sets",
    "Whatami.c67_dicts",
    "Whatami.c67_not_ids"
   ],
   "note": "The right-hand side is a What (objects with attributes name, conf and out_name are not modelled). c67_symm assumes collections without doubles on one side (Python's invariant of sets and dicts), c67_trans nothing."
  },
  {
   "property": "C68",
   "status": "proved",
   "theorems": [
    "Whatami.c68_rows",
    "Whatami.c68_columns",
    "Whatami.c68_cells",
    "Whatami.c68_defined",
    "Whatami.c68_history"
   ],
   "note": "pandas >= 1.0 (missing labels in .loc raise); its orders are arbitrary permutations; conversions of the values of a column to a common type are not modelled."
  },
  {
   "property": "C69",
   "status": "proved",
   "theorems": [
    "Whatami.c69_keys",
    "Whatami.c69_entries",
    "Whatami.c69_defined",
    "Whatami.c69_ids"
   ],
   "note": "The docstring promises a dict of strings to strings: fsource is a pair of lines and a number, and what is not given is None."
  },
  {
   "property": "C70",
   "status": "proved",
   "theorems": [
    "Whatami.c70_fqn",
    "Whatami.c70_use_class",
    "Whatami.c70_errors",
    "Whatami.c70_import",
    "Whatami.c70_nested",
    "Whatami.c70_distinct"
   ],
   "note": "The name attributes of the object and its class are given."
  },
  {
   "property": "C71",
   "status": "proved",
   "theorems": [
    "Whatami.c71_exact",
    "Whatami.c71_sorted",
    "Whatami.c71_defined"
   ],
   "note": "init_argspec does not fail on classes; the rest of the report is not used."
  },
  {
   "property": "C72",
   "status": "proved",
   "theorems": [
    "Whatami.c72_add",
    "Whatami.c72_history"
   ],
   "note": "On all configurations that show in ids (Showable); sameness is that of C90 (SameToIds), which on the fragment of C08 is sameness up to order (c90_printable)."
  },
  {
   "property": "C73",
   "status": "proved",
   "theorems": [
    "Whatami.c73_told",
    "Whatami.c73_expression"
   ],
   "note": "repr of the built-in types is modelled after CPython; which characters beyond ASCII are printable is arbitrary. The order of a set is that of its list in the model. Other objects inside have no modelled repr."
  },
  {
   "property": "C74",
   "status": "proved",
   "theorems": [
    "Whatami.c74_lookup",
    "Whatami.c74_get",
    "Whatami.c74_flatten"
   ],
   "note": "Equality counts a nan as equal to itself, as `==` of collections does for the same object."
  },
  {
   "property": "C75",
   "status": "proved",
   "theorems": [
    "Whatami.c75_sort",
    "Whatami.c75_match",
    "Whatami.c75_columns",
    "Whatami.c75_columns_succeeds"
   ],
   "note": "On the fragment of C06 without nan; match_whatids without collections_too; `<` on values is any relation that does not tell equal values apart."
  },
  {
   "property": "C76",
   "status": "proved",
   "theorems": [
    "Whatami.c76_done",
    "Whatami.c76_succeeds",
    "Whatami.c76_raises",
    "Whatami.c76_retry",
    "Whatami.c76_again",
    "Whatami.c76_what",
    "Whatami.c76_repeated_kfold",
    "Whatami.c76_check",
    "Whatami.c76_check_passes",
    "Whatami.c76_check_probes",
    "Whatami.c76_check_raises"
   ],
   "note": "What imports give or raise, the method resolution orders and what cls() makes are arbitrary; an import that fails has no effect of its own."
  },
  {
   "property": "C77",
   "status": "proved",
   "theorems": [
    "Whatami.c77_text",
    "Whatami.c77_id",
    "Whatami.c77_read",
    "Whatami.c77_again",
    "Whatami.c77_same_id"
   ],
   "note": "Chains of partials and toolz curries have a stand-in if at most one of them has positional arguments (c27_curry_swapped shows why) or all are plain partials. Reading back is on the fragment of C06 (c77_read) and C07 (c77_again); that two configurations with the same id are seen as the same is C08 for the stand-ins."
  },
  {
   "property": "C78",
   "status": "proved",
   "theorems": [
    "Whatami.c78_like",
    "Whatami.c78_decorated",
    "Whatami.c78_inspects",
    "Whatami.c78_raises",
    "Whatami.c78_callable",
    "Whatami.c78_mixin",
    "Whatami.c78_function",
    "Whatami.c78_call",
    "Whatami.c78_call_raises"
   ],
   "note": "what() methods of the user's own are C55/C64's matter; a __name__ that is no string stands as TypeError."
  },
  {
   "property": "C79",
   "status": "proved",
   "theorems": [
    "Whatami.c79_loads",
    "Whatami.c79_ids",
    "Whatami.c79_any",
    "Whatami.c79_no_braces",
    "Whatami.c79_exponential",
    "Whatami.c79_at_least"
   ],
   "note": "Work is the number of calls of a terminal's match; arpeggio is used without memoization, its default. c79_ids is on the fragment of C06; the visitor's work is not counted."
  },
  {
   "property": "C80",
   "status": "proved",
   "theorems": [
    "Whatami.c80_register",
    "Whatami.c80_remove_nick",
    "Whatami.c80_remove_what",
    "Whatami.c80_history",
    "Whatami.c80_back",
    "Whatami.c80_nick_or_id",
    "Whatami.c80_tells_apart",
    "Whatami.c80_confused"
   ],
   "note": "On all configurations that show in ids (Showable; the fragment of C06 for c80_back); sameness is that of C90 (SameToIds). Nicknames are strings; remove with both arguments is C31."
  },
  {
   "property": "C81",
   "status": "proved",
   "theorems": [
    "Whatami.c81_call",
    "Whatami.c81_frame",
    "Whatami.c81_untouched",
    "Whatami.c81_reachable",
    "Whatami.c81_shared",
    "Whatami.c81_new",
    "Whatami.c81_override",
    "Whatami.c81_get",
    "Whatami.c81_record",
    "Whatami.c81_list",
    "Whatami.c81_copy",
    "Whatami.c81_add",
    "Whatami.c81_not_independent"
   ],
   "note": "A postprocessor returns the dict it was given or a new one, not one that something else refers to."
  },
  {
   "property": "C82",
   "status": "proved",
   "theorems": [
    "Whatami.c82_limit",
    "Whatami.c82_enough",
    "Whatami.c82_equation",
    "Whatami.c82_first_match",
    "Whatami.c82_talk",
    "Whatami.c82_unique",
    "Whatami.c82_bound",
    "Whatami.c82_returns",
    "Whatami.c82_circle",
    "Whatami.c82_conservative",
    "Whatami.c82_declining",
    "Whatami.c82_after",
    "Whatami.c82_own",
    "Whatami.c82_own_id"
   ],
   "note": "Recursion limit counted in nested calls of build_string; user plugins do not catch RecursionError, nor change the chain; that is_whatable does catch it, which matters when frames are counted, is C92."
  },
  {
   "property": "C83",
   "status": "proved",
   "theorems": [
    "Whatami.c83_is_whatable",
    "Whatami.c83_accepts",
    "Whatami.c83_decorated",
    "Whatami.c83_after",
    "Whatami.c83_marks",
    "Whatami.c83_force",
    "Whatami.c83_refused",
    "Whatami.c83_unrelated",
    "Whatami.c83_own",
    "Whatami.c83_class",
    "Whatami.c83_stays",
    "Whatami.c83_stuck",
    "Whatami.c83_new"
   ],
   "note": "Properties called what give no method and have no setter; bound methods take no attributes (Python 3)."
  },
  {
   "property": "C84",
   "status": "proved",
   "theorems": [
    "Whatami.c84_says",
    "Whatami.c84_classes",
    "Whatami.c84_partial_misfit",
    "Whatami.c84_text",
    "Whatami.c84_tells_apart",
    "Whatami.c84_blind"
   ],
   "note": "Options: add_class off and the default prefix, so the descriptors of the built-in types with two underscores never show. c84_blind is finding 44."
  },
  {
   "property": "C85",
   "status": "proved",
   "theorems": [
    "Whatami.c85_accepts",
    "Whatami.c85_what",
    "Whatami.c85_history",
    "Whatami.c85_not_checked",
    "Whatami.c85_whatareyou",
    "Whatami.c85_then_default"
   ],
   "note": "Functions are trees: that decorating in place also changes other functions that captured the same one is not modelled. c85_not_checked and c85_whatareyou (not in place) are finding 45."
  },
  {
   "property": "C86",
   "status": "proved",
   "theorems": [
    "Whatami.c86_kept",
    "Whatami.c86_returned",
    "Whatami.c86_quiet",
    "Whatami.c86_once",
    "Whatami.c86_conservative",
    "Whatami.c86_history",
    "Whatami.c86_overwritten",
    "Whatami.c86_no_rollback"
   ],
   "note": "The iterables given to add are collections; user code does not write to the dicts in the registry (C81 has that). c86_overwritten and c86_no_rollback are finding 46; c86_conservative and c86_history link to C32-C36 and C45."
  },
  {
   "property": "C87",
   "status": "proved",
   "theorems": [
    "Whatami.c87_text",
    "Whatami.c87_id",
    "Whatami.c87_simple",
    "Whatami.c87_needed"
   ],
   "note": "User plugins are as in C82: conversations with build_string. Chains from which other plugins of whatami are dropped are left out: str() of collections is not modelled."
  },
  {
   "property": "C88",
   "status": "proved",
   "theorems": [
    "Whatami.c88_text",
    "Whatami.c88_plain",
    "Whatami.c88_id",
    "Whatami.c88_same_id",
    "Whatami.c88_read",
    "Whatami.c88_tells",
    "Whatami.c88_raises",
    "Whatami.c88_bound"
   ],
   "note": "Objects are trees: with deep=True an object that has itself as an attribute recurses for ever in the code. Objects in function position of a partial are not replaced. str() of objects is data of the model, as for the default plugin."
  },
  {
   "property": "C89",
   "status": "proved",
   "theorems": [
    "Whatami.c89_register",
    "Whatami.c89_add",
    "Whatami.c89_add_refuses",
    "Whatami.c89_column_refuses",
    "Whatami.c89_unique",
    "Whatami.c89_call_dict",
    "Whatami.c89_member",
    "Whatami.c89_object",
    "Whatami.c89_cells"
   ],
   "note": "For remove see C29, C31; for whatable on classes C64; for call2what C78. If several columns or postprocessors would raise, the theorem names the reasons but not the order."
  },
  {
   "property": "C90",
   "status": "proved",
   "theorems": [
    "Whatami.c90_same_id",
    "Whatami.c90_seen",
    "Whatami.c90_same_to_ids",
    "Whatami.c90_printable",
    "Whatami.c90_strings",
    "Whatami.c90_parts",
    "Whatami.c90_full"
   ],
   "note": "C08 is the same on the fragment that reads back, without the last two of the four differences."
  },
  {
   "property": "C91",
   "status": "proved",
   "theorems": [
    "Whatami.c91_read",
    "Whatami.c91_back",
    "Whatami.c91_stays",
    "Whatami.c91_again",
    "Whatami.c91_seen"
   ],
   "note": "c91_read: exactly what each id is read as (iff, against the inductive ReadAs). c91_back/c91_stays: comes back as it was iff legible and Stays. c91_again: what was read stays. c91_seen: for values that are shown as data (C77)."
  },
  {
   "property": "C92",
   "status": "proved",
   "theorems": [
    "Whatami.c92_enough",
    "Whatami.c92_depth",
    "Whatami.c92_data",
    "Whatami.c92_without",
    "Whatami.c92_silent",
    "Whatami.c92_cut",
    "Whatami.c92_right",
    "Whatami.c92_collide",
    "Whatami.c92_unstable"
   ],
   "note": "The numbers of frames are parameters; the example has those read off the code for CPython 3 (4 between two calls of build_string through a whatable object, at least 9 for is_whatable to get to the bottom of inspect.getmembers, at most 3 for answering c()). Values are trees: an object that refers back to itself looks, to any number of frames, like a chain longer than fits, so c92_cut is also what happens to it."
  },
  {
   "property": "C93",
   "status": "proved",
   "theorems": [
    "Whatami.c93_runs_repr",
    "Whatami.c93_reads",
    "Whatami.c93_otherwise",
    "Whatami.c93_text_irrelevant",
    "Whatami.c93_plain",
    "Whatami.c93_what",
    "Whatami.c93_lost",
    "Whatami.c93_raises",
    "Whatami.c93_unset",
    "Whatami.c93_ordered",
    "Whatami.c93_dict",
    "Whatami.c93_self"
   ],
   "note": "repr, str and what reading attributes raises are functions of the value: no side effects. In c93_plain the function of a partial is callable, as Python makes sure."
  },
  {
   "property": "C94",
   "status": "proved",
   "theorems": [
    "Whatami.c94_same",
    "Whatami.supported_positionable",
    "Whatami.c94_from_id",
    "Whatami.c94_renamed",
    "Whatami.c94_not_from_id",
    "Whatami.c94_nonids"
   ],
   "note": "Texts before trimming; maxlength is C05."
  },
  {
   "property": "C95",
   "status": "proved",
   "theorems": [
    "Whatami.c95_alone",
    "Whatami.c95_apart",
    "Whatami.c95_nothing_else",
    "Whatami.c95_interrupted",
    "Whatami.c95_half_done",
    "Whatami.c95_half",
    "Whatami.c95_sided",
    "Whatami.c95_half_reset",
    "Whatami.c95_stale",
    "Whatami.c95_no_removal",
    "Whatami.c95_race",
    "Whatami.c95_race_reset"
   ],
   "note": "Steps are accesses to the attributes and dictionaries, atomic in CPython for keys that are strings; what2id, which the calls run first, does not use the registry. c95_alone relates the steps to the model of C28-C31."
  },
  {
   "property": "C96",
   "status": "proved",
   "theorems": [
    "Whatami.c96_alone",
    "Whatami.c96_any",
    "Whatami.c96_later",
    "Whatami.c96_apart",
    "Whatami.c96_race"
   ],
   "note": "Settings of the recorder do not change meanwhile; the commit (OrderedDict.update with ids that are strings or integers) is one step in CPython. c96_alone relates the steps to the model of C32-C36."
  },
  {
   "property": "C97",
   "status": "proved",
   "theorems": [
    "Whatami.c97_alone",
    "Whatami.c97_any",
    "Whatami.c97_unique",
    "Whatami.c97_twice",
    "Whatami.c97_lost"
   ],
   "note": "Removal from a list and the assignment of the attribute are one step each in CPython. c97_alone relates the steps to the model of the plugin manager."
  },
  {
   "property": "C98",
   "status": "proved",
   "theorems": [
    "Whatami.c98_strings",
    "Whatami.c98_order",
    "Whatami.c98_mixed",
    "Whatami.c98_unordered",
    "Whatami.c98_one_kind",
    "Whatami.c98_two_kinds",
    "Whatami.c98_frozensets",
    "Whatami.c98_texts",
    "Whatami.c98_nonid"
   ],
   "note": "`sorted` is any program that asks for comparisons and sorts stably whenever these are a strict weak order (insertion sort is proved to be one). Only the first level of the configuration has such keys. Keys of built-in types: strings, integers, booleans, None, NaN, frozensets of integers."
  },
  {
   "property": "C99",
   "status": "proved",
   "theorems": [
    "Whatami.c99_sort_whats",
    "Whatami.c99_sort_whatids",
    "Whatami.c99_scalars"
   ],
   "note": "Values that are missing raise before (C37). What `sorted` is: as in C98."
  }
 ]
}