# Formal model of sdvillal/whatami in Lean 4 — design

Status: the plan was written before the proofs; the sections from "As built" on are kept current.

## Approach

Shallow executable model, one Lean definition per Python function, exceptions as values
(`Except Err α`), every definition citing file and lines of /repo. Theorems about all inputs,
states and histories are proved by induction/invariants/refinement. Core Lean only unless a
single Mathlib module is needed.

Modules (under `lean/Verif/`):

| module | models |
|---|---|
| `Basic` | Python primitives used by the code: dict as insertion-ordered association list, `sorted`, `str.replace/startswith/endswith/partition/rpartition/join`, errors |
| `Val` | the universe of Python values a configuration may hold, `What`, the external world `Env` |
| `Misc` | misc.py: `trim_dict`, `config_dict_for_object`, `callable2call`, `required_args`, `call_dict`, `maybe_import`, ... |
| `Plugins` | plugins.py: each plugin, the chain, `build_string`; what.py: `What.id`, `_trim_too_long`, `positional_id`, `whatareyou` |
| `Manager` | plugins.py: `WhatamiPluginManager` state machine |
| `Parser` | parsers.py: both PEG grammars with arpeggio semantics, parse trees, the tree visitor, `parse_whatid` |
| `WhatOps` | what.py: `flatten`, `__getitem__`, `get`, `__eq__`, `copy`, `set` (with a heap for aliasing) |
| `Registry`, `Recorder` | registry.py state machines |
| `Utils` | whatutils.py |
| `Spec/*` | small specifications the theorems are stated against, independent of the model's helpers |
| `Props/*` | the property theorems, one section per property, with non-vacuity examples |

## Plan per property

| id | what is modelled | how it is proved |
|---|---|---|
| C01 | `What.id` over an association list | sorted permutations with unique keys are equal |
| C02, C03, C24 | relation `Same` (equal up to order / non-id / private attributes) in Spec | one congruence theorem for `build_string`, strong induction on nesting depth |
| C04 | `What.id` | characterisation through an independent description of the key list |
| C05 | `_trim_too_long` with the digest as parameter | case analysis for all lengths and digests |
| C06-C08 | printer and PEG parser + visitor | induction on the value: the printed text followed by a delimiter is read back; injectivity as a corollary |
| C09 | `string_plugin` | list induction on the two `replace` calls |
| C10 | parser with a recursion bound | the bound is never hit: the bounded parser satisfies the unbounded grammar equations for every input |
| C11 | token rendering with arbitrary blanks | same induction as C06, with blanks |
| C12 | visitor output | induction over the parser |
| C13 | counterexamples as theorems (universally quantified where possible) + C06 as the proved part; exactly which ids are accepted, whatever strings and names (Spec/Accepted, Spec/Legible): a scanner of quotes refuses illegible strings, nested names like values get every alternative of the grammar stuck, all other texts are those of some well-formed syntax; structural induction | partial: the property is false of the code |
| C14, C15, C17 | `build_string` | knot equation + induction on nesting depth |
| C16 | manager state machine | invariant over operation lists |
| C18-C20 | flatten / getitem | induction on nesting |
| C21-C23 | heap of conf dictionaries | frame lemma over histories; what an object stands for said without the recursion limit (StandsFor), defined exactly when nothing nested contains itself; operations possible exactly when all they mention exists; C23 is false of the code: negation + partial |
| C25, C26 | `trim_dict`, `config_dict_for_object` | association-list lemmas |
| C27 | `callable2call` vs the Python call rule | induction over nested partials; false in one documented corner |
| C28-C31 | registry state machine | refinement to a partial bijection, induction over histories; C31 is false of the code |
| C32-C36 | recorder state machine | induction over ids/histories |
| C37, C38 | whatutils | sort/filter lemmas |
| C39-C41 | whatutils on top of printer/parser | corollaries |
| C42-C44 | misc.py | association-list lemmas; C43 is false of the code |
| C45, C51 | postprocessors and settings of the recorder | induction over histories |
| C46 | printer and parser on arbitrary accepted texts | whatever the parser accepts is the text of well-formed syntax (ParseSound), whose value is printable |
| C47 | the hand-written scanners against `re.match` | backtracking semantics of regular expressions in Spec/Regex |
| C48 | class hierarchies, slots, properties | against a specification of Python's attribute access (Spec/Attr) |
| C49 | whatid2columns over named columns | induction over the columns |
| C50 | indexing by paths | inductive step relation |
| C52 | the text of values under the default chain | inductive specification of the texts (Spec/Text) |
| C53 | curried add and padd | history of freezings, last one given wins |
| C54 | whatable on functions, closures, partials | relation `CallRuns`, induction over decorations, reduction to C27 |
| C55 | whatable on objects and classes | states that differ only in `what`, reduction to C48 |
| C56 | ids of numpy arrays | addresses and strides; the buffer is an enumeration of the elements in an order fixed by shape and strides |
| C57 | all_subclasses | class graph; the result enumerates the paths, induction on the nesting |
| C58 | whatamize_object, whatamize_sklearn | lookup along method resolution orders, induction over the list of bases |
| C59 | sklearn declarations and what() | last declaration wins; id determined up to the first parenthesis; both tables as data |
| C60 | choice of the declarations | loop over sorted versions, order of versions spelled out |
| C61 | import_submodules | relation `Under`, induction over the nesting and the loop |
| C62 | decorate_some | relation `Applied`, induction over the decorators and over the class definitions |
| C63 | The whole of parsing against relations for spelling (`Spelt`, `IsText`) and meaning (`Means`) | each construct reads its spelling (`ReadsAs`), induction over syntax; conversely induction over the fuel of the parser; `sem` against `Means` by induction over syntax |
| C64 | whatable/is_whatable on classes, with whatfunc and force | state of own attributes and marks; every call only adds marked functions (`Grows`), induction over the history |
| C65 | `Hasher` and `NumpyHasher`: ordering of dicts, sets and attributes, what stands for arrays, types, sets and methods, pickle opcodes, memo, the data of arrays hashed on the way | an unpickler reads the opcodes back (`dump_strip`), so they determine the value up to the data of arrays, whose lengths they give, so the data can be told apart too (`alike_arrange`); sorted lists are unique, induction over the relation `Alike` |
| C66 | build_string with stand-ins for missing libraries | results less defined or equal (`LessDef`), induction over the recursion bound; the basic plugins handle everything but late values (`BasicChain`), reduction to C17 |
| C67 | `==` of values | induction over the depth; pigeonhole for sets and dicts without doubles |
| C68 | Recorder.to_df | pandas' orders as arbitrary permutations; rows against records by position; history by C33 |
| C69 | mlexp_info_helper | cases over the calls in it; C39 |
| C70 | fqn, with maybe_import_member | cases over the attributes; rpartition against `DottedName` |
| C71 | sklearn_parameters_report | C57 and C70, sorted list without duplicates |
| C72 | recorder of configurations | C33 and C90 joined: `what2id` as id extractor; the ids of records are those of configurations, equal exactly for equal configurations |
| C73 | What.__repr__ | `Repr.lean` models `repr` of data; injective by induction with arbitrary text behind (kinds told apart by the beginning); `Literal`, Python's expressions for data, is the specification |
| C74 | What.__eq__, __getitem__, get, flatten | equal values without doubles are `Twins` on both sides (pigeonhole); steps, walks and items of a path by induction on the item; the sorted items of equal confs pair up |
| C75 | sort_whats, sort_whatids, match_whatids, whatid2columns on generated ids | C06 gives an equal What, without doubles (`Twins`); lookups by C74, flattening by `flat_twins`, then C38 and C49; sorting by a common list of rows |
| C76 | whatamize_sklearn with the imports of the declarations, what an exception leaves behind, and check=True | all outcomes of a call (`patch_cases`); declaring a prefix and then everything is declaring everything (`putAll_retry`); induction over the earlier calls (`Tries`); C57, C58, C60 |
| C77 | the relation `StandIn` between a value and the What shown for it (`Spec/StandIn`), closed under `Cong` | each stand-in has the same text (`standIn_text`: C27 for partials, C48 for objects, C52 for the rest), congruence of ids (`cong_text`), then C06, C07, C08 for the stand-ins |
| C78 | obj2what over objects with a FunctionLike, decorated or no `what`, callable or not (`FunctionLike`), and over functions; call2what over any stack | attribute semantics of C48, argument binding of C27, C25 for the options; index arithmetic |
| C79 | number of terminal matches of a parser run (`ParseCost.tries`, beside `run`) | inversion of runs with their cost (`Took`); accepted values cost at most 96 per character where the first key of a dict counts twice, and hashable keys contain no dict; rejected ones by induction on length, halving the budget at each brace; the lower bound by induction on the number of braces |
| C80 | `Registry` with `what2id`; a book of nicknames as specification (`Props/Nicknames`) | refinement of the book over histories, from C29 and what ids tell apart (C90) |
| C81 | recorders, their lists of postprocessors and their record dicts as objects on a heap (`RecorderHeap`) | simulation of `Recorder` step by step; frame theorem over histories; invariant that no dict is in two places |
| C82 | user plugins as interaction trees (`Callbacks.Act`): answer, or ask `build_string` and go on; `build_string` under a recursion limit | monotone in the limit; each plugin of whatami asks about finitely many values made of parts of its argument (`CallbackLemmas.asks`), so the limit of the runs satisfies the equation of the loop; induction on the limit for the rest |
| C83 | `Session`: the state of C64 plus the own attribute `what` of every object; `whatable` on objects with whatfunc and force | case analysis of a call, frame lemmas per call, induction over the history |
| C84 | `whatareyou` on the built-in values; specification `TypeName`, `Contents`, `InstDict`, `SaysOf` | cases on the value, membership in dicts with unique keys (C25), the text from C52 |
| C85 | `Decorated` with the attribute `what` either a frozen What or a call of the user's function on its owner | cases on the call, induction over the history, C54 and the signature lemmas of C27 |
| C86 | user code as interaction trees over a state of any type, `add` calling itself through them (`RecorderLive`) | invariant by induction over the depth of nesting, the trees and the loop; log of calls as part of the state |
| C87 | Callbacks, ChainCong | every plugin of whatami gives values of the same kind with components of the same text the same text, whatever build_string is (run_pointwise); induction on the recursion limit and on where the difference is |
| C88 | DeepPlugin: the plugin as a user's plugin in the sense of C82 | induction on the recursion limit and on where the object is, with C87's congruence; C82 for termination, C77 and C08 for sameness |
| C89 | Registry, Recorder, Frame, Session, Columns | case analysis, induction on the ids and columns |
| C90 | Encode (the syntax of ids), Marks, Tells | texts with their literals marked: two markings of the same text that both end outside of literals are the same (once apart they stay apart); then induction on the syntax, the kind of a value being told by its first word and what follows it |
| C91 | Spec/ReadAs: the inductive relation ReadAs and the predicate Stays, from the texts of Spec/Text and the vocabulary of Spec/Meaning | the parser's result on the text of a supported value (C80/C88) composed with the meaning of the calmed text (C53); induction on the configuration; Stays by comparing with what was read through Cong |
| C92 | Stack (runF, buildF: frames counted; a RecursionError inside is_whatable declines) | c92_enough, c92_depth by induction on depth through what plugins ask; c92_data by the order 'equal or RecursionError'; c92_cut by induction on frames |
| C93 | Printing (callable2call with its error message; whatareyou, is_whatable and the plugins that use it) | by cases on what the partials call; buildP_eq by depth; c93_self by induction on the limit |
| C94 | WhatOps (positional_id, flatten), Listing | positional ids share their list with the text of a Python list, so C90's uniqueness of syntax gives the values; flatten's list is the only one that is in order and has all parameters (c19_order) |
| C95 | RegThreads (registry step by step, schedules) | refinement to C28-C31 for a call alone; separation of the keys that calls are about; invariant of what may be written; given schedules for the races |
| C96 | RecThreads (add step by step, schedules) | invariant over schedules (what calls that have not ended may commit, where each record came from); calls about different ids only ask whether their ids are there; a schedule for the race from the runs alone |
| C97 | PlugThreads (insert, drop and reset step by step, schedules) | invariants over schedules (what a pending write may hold); explicit schedules for the two races |
| C98 | GenKeys (id and keys with any keys, `sorted` as a decision tree); Spec.StableSort | adversary argument: a run that never compares two kinds gives the same list for two opposite orders; uniqueness of sorted lists |
| C99 | SortAny (`<` on tuples that may raise) | two orders of the kinds that agree with every comparison that does not raise; any stable sort is the model's stable sort |
| C100 | HashSort (the hash of `Hasher` with any sort in the place of `sorted`); Spec.StableSort, Spec.Hash | two orders of the kinds that agree with every comparison that does not raise; structural induction; c65_order |
| C101 | PlugDescribe (build_string and What.id as programs that read the list once per call, next to the threads of C97) | induction over the schedule and the program; the programs refine the recursive model (eval_calls) |
| C102 | HashOpts (the hash with its options; the fallbacks hash with the defaults) | structural induction (the coerced hash is that of the value without memory maps), c65_distinguishes |
| C103 | Cyclic (build_string over a memory with references, frames counted) | every level is a function of the texts of what it shows (chain_cell); induction on frames (raises, same), on accessibility (finite, tree); pigeonhole (loop) |
| C104 | HashFail (the pickler as actions that write and remember also when they end in an exception) | c104_fine: the same as the pickling of Hasher on the value as JVal (induction); named, bare: the error gets out (induction, freshness of identities); never, hidden: the first pass leaves the list in the memo, the second refers to it; order: sorted lists of permutations are equal |
| C105 | HashGraph (memory, and the pickler with its memo) | ends: what is remembered only grows within the parts (measure); same: the memos of both runs stay aligned (invariant); tells: equal pickles are parsed together, and what the two memos hold at the same index is paired off (induction on the first run, with a grammar of the pickles); tree: the pickler of HashFail does the same (induction) |
| C106 | EqMem (memory, `==` with the identity shortcut of containers, comparisons counted) | equal, differ: bisimulation (coinduction, induction on frames); raises: along the path no frame count does; ends: accessibility (no endless path, by choice) and finite branching; deepcopy: the copying map is a bisimulation, and along a loop it fixes nothing; order: a witness; tree: induction, the items being alike as the subtrees are |
| C107 | FlatMem (memory of EqMem, the loop and its recursive call counted) | exact: induction on the frames; nodup, order: the first step of a key says which item it comes from; tree: the same induction for both `flatten`s; ends: accessibility (no endless path, by choice) and finite branching; raises: along the path no frame count does |
| C108 | ReprMem (memory, the containers being shown, calls counted) | ends: the number of containers not being shown goes down at least every second call; tree: accessibility rules out that something being shown is met again, then induction on the tree; told: C73; tells: induction on the calls, reading the two texts in step as in C73 (a guard shows three dots, where no tree has a text with a dot); loops: from tells, no tree contains itself; confused: a witness |

Not modelled at all (planned): pandas/numpy internals (only the resulting hash string),
Python 2 behaviour, threads other than on registry, recorder and plugin list (C95-C97, C101).

# As built

## Modules

Model (every definition cites file and lines of /repo and states its simplifications):
`Basic` (Python primitives), `Val` (values), `Misc`, `Plugins`, `Callbacks` (user plugins that call back), `DeepPlugin` (`anyobject0x_plugin(deep=True)`), `Manager`, `PyEq` (`==`, hashing), `WhatOps`, `Heap`
(aliasing of Whats), `Registry`, `RegThreads` (the registry step by step), `Recorder`, `RecThreads` (`add` step by step), `PlugThreads` (the plugin list step by step), `GenKeys` (keys that are not strings), `SortAny` (sorting values that may not compare), `HashSort` (minijoblib's hash with any sort), `PlugDescribe` (ids made while the plugin list changes), `HashOpts` (minijoblib's hash with its options), `Cyclic` (values that contain themselves), `HashFail` (minijoblib's hash on values that cannot be pickled), `HashGraph` (and on values that contain themselves), `EqMem` (`==` on values that contain themselves), `FlatMem` (`flatten` on them), `ReprMem` (`repr` of them), `Peg` (arpeggio), `Parser` (both grammars, visitors, parse_whatid), `Frame`
(call_dict, argument specifications, import helpers), `Utils`, `OldIds`, `Classes` (attribute sources over class
hierarchies), `Columns`, `RecorderHeap` (what recorders share), `RecorderLive` (callbacks that use the recorder), `Curry` (curried `add`, `padd`), `Decorated` (closures and `whatable` on functions), `DecoratedObj`
(`whatable` on objects and classes), `Arrays` (what minijoblib hashes of a numpy array), `ClassGraph` (class hierarchies, `all_subclasses`,
`whatamize_object`), `Sklearn`, `SklearnPatch` (wrappers/what_sklearn.py), `Submodules` (`import_submodules`), `DecorateSome`,
`DecoratedClass` (`whatable` on classes over a session), `Session` (on classes and objects), `Optional` (missing libraries), `ToDf` (`Recorder.to_df`), `Naming` (`fqn`, `mlexp_info_helper`), `Report` (`sklearn_parameters_report`), `Repr` (`What.__repr__`), `Hasher` (minijoblib's pickler on plain values), `FunctionLike` (obj2what on objects), `ParseCost` (the work of the parser; `Cost*` are proofs), `Stack` (`build_string` with frames counted), `Printing` (where `repr()` and `str()` of user objects are run).

`Conformance/*`: the repository's own tests, replayed on the model as examples closed by `rfl`. They are tests of the model, not proofs, and no
claim rests on them; they say that the model computes what the project's tests expect. Not replayed: pickling, tests marked xfail, identity of
objects, numpy hashes (given), a subclass of `Recorder` with its own `add`.

Specifications, independent of the model's functions (they use only its data types, and a few named ones its comparison of
strings): `Spec/Same` (changes that must not show in an id), `Spec/Within` (what a value contains), `Spec/Shown` (what of it shows), `Spec/StandIn` (what stands for values that are not data), `Spec/Deep` (objects as Whats of their attributes), `Spec/Reach` (what an object
depends on), `Spec/Fragment` (configurations whose ids can be read back), `Spec/Call` (what calling a partial binds),
`Spec/Regex` (`re.match`), `Spec/Attr` (attribute access), `Spec/Text` (text of a value), `Spec/Equal` (values with a `==`), `Spec/Meaning` (spelling and meaning of ids), `Spec/Accepted` (which ids of the fragment are accepted), `Spec/Legible` (all configurations C13 is about, and which of them read), `Spec/Collide` (what ids do not show), `Spec/SameToIds` (the same for values that are not data), `Spec/ReadAs` (what configurations are read back as, and when nothing is lost), `Spec/Positional` (the parameters of a configuration in order), `Spec/StableSort` (what is relied on of `sorted`), `Spec/Arrays` (elements of arrays), `Spec/Hash` (values with the same contents), `Ast` and `Old/Ast` (concrete syntax
of ids, tokens and spacing). Smaller ones stand at the head of the `Props` module that uses them.

Proofs: `*Lemmas`, `DefaultChain`, `BasicChain`, `ChainCong`, `Ev`, `ParseValue`, `ParseSound`, `ParseSem`, `Encode`, `Decode`, `ParseExact`, `TreeInj`, `Parsed`, `QuoteScan`, `Stuck`, `Calm`, `CalmText`, `Marks`, `Tells`, `Listing`,
`Normal`, `Old/*`. Property theorems with their examples: `Props/*`; MANIFEST.json maps properties to theorems.

## Trusted base

* Lean's kernel (4.33.0) and these axioms, per theorem (generated by `mkaxioms.py`); none are added, nothing rests on compiled code:

<!-- axioms -->
| axioms | theorems |
|---|---|
| Classical.choice, Quot.sound, propext | c02_order, c02_order_value, c02_order_nonids, c03_nonids, c03_nonids_any_chain, c05_length, c05_positional_length, c06_round_trip, c06_round_trip_hidden, c06_equal, c07_id_of_parsed, c08_injective, c08_injective_hidden, c08_iff, c09_quoted, c09_collisions, c09_nested, c10_no_shape_error, c100_sort, c100_hash, c100_order, c100_some_pairs, c102_iff, c102_inside, c103_finite, c103_iff, c103_same, c103_tree, c103_unfolds, c103_loop, c103_silent, c104_fine, c104_named, c104_bare, c104_never, c104_hidden, c105_ends, c105_same, c105_tells, c105_iff, c105_tree, c106_equal, c106_differ, c106_raises, c106_ends, c106_iff, c106_self, c106_copy, c106_deepcopy, c106_deepcopy_fine, c106_copy_deep, c106_order, c106_tree, c107_ends, c107_tree, c108_ends, c108_told, c108_tells, c108_loops, c11_whitespace, c12_well_named, c12_well_named_classes, c13_accepts_partial, c13_full, c13_syntax, c13_seen, c13_seen_syntax, c13_iff, c13_set_of_whats, c14_first_match, c17_never_none, c17_default, c17_exactly, c17_raises, c18_flatten, c18_flatten_total, c19_order, c21_defined, c24_private, c24_private_object, c24_private_defaults, c25_empty_affix, c27_partials, c27_partials_iff, c27_binding_partial, c27_reports_partial, c28_bijection, c28_injective, c29_register, c30_failure, c31_iff, c35_gets_total, c37_sort_whats, c37_sort_whatids, orders_ints, c38_match, c38_monotone, c38_self, c38_bad_id, c38_unhashable, c38_no_parameters, c40_to_dict, c40_id2dict, c41_unchanged, c41_new_unchanged, c41_idempotent, c41_total, c41_parses_back, c44_ensure, c46_reparse, c46_equal, c46_normal_form, c47_tokens, c48_attributes, c48_sources, c48_whatareyou, c49_default, c50_path, c50_raises, c50_unhashable, c50_other, c52_text, c52_defined, c52_elements, c52_no_text, c54_reports, c54_accepts, c55_live, c55_excludes, c56_iff, c56_in_id, c56_text, c56_equal, c56_layout, c57_paths, c57_subclasses, c57_nodup, c57_strict, c57_defined, c58_kept, c58_given, c58_all, c58_again, c59_nonids, c59_distinct, c59_ids_differ, c59_told, c60_choice, c61_total, c63_reads, c63_exact, c63_rejects, c64_accepts, c64_error, c64_accepted, c64_stays, c64_decorated, c64_forced, c64_refused, c64_kept, c64_unrelated, c64_new, c65_order, c65_distinguishes, c65_iff, c65_bytes, c65_collision, c65_frozenset, c65_partial_order, c65_empty_array, c65_swapped, c66_without_pandas, c66_import_error, c66_dropped_all, c67_symm, c67_trans, c67_refl, c67_whats, c67_sets, c67_dicts, c67_not_ids, c68_columns, c68_cells, c71_exact, c71_defined, c72_add, c72_history, c73_told, c74_lookup, c74_get, c74_flatten, c75_sort, c75_match, c75_columns, c75_columns_succeeds, c76_done, c76_succeeds, c76_raises, c76_retry, c76_again, c76_what, c76_repeated_kfold, c76_check, c76_check_passes, c76_check_probes, c77_text, c77_id, c77_read, c77_again, c77_same_id, c78_like, c78_decorated, c78_inspects, c78_raises, c78_function, c78_call_raises, c79_loads, c79_ids, c79_any, c79_no_braces, c80_register, c80_remove_what, c80_history, c80_back, c80_nick_or_id, c80_tells_apart, c80_confused, c82_limit, c82_enough, c82_equation, c82_first_match, c82_talk, c82_unique, c82_bound, c82_returns, c82_conservative, c82_declining, c82_after, c82_own, c82_own_id, c83_accepts, c83_unrelated, c83_own, c83_class, c83_stays, c83_stuck, c83_new, c84_text, c84_tells_apart, c85_whatareyou, c85_then_default, c87_text, c87_id, c87_needed, c88_text, c88_plain, c88_id, c88_same_id, c88_read, c88_tells, c88_raises, c88_bound, c89_add, c89_cells, c90_same_id, c90_seen, c90_same_to_ids, c90_printable, c90_strings, c90_parts, c90_full, c91_read, c91_back, c91_stays, c91_seen, c92_enough, c92_depth, c92_data, c92_without, c92_right, c92_collide, c93_otherwise, c93_text_irrelevant, c93_plain, c93_what, c93_lost, c93_raises, c93_unset, c93_ordered, c93_dict, c94_same, c94_from_id, c94_renamed, c95_alone, c95_apart, c95_interrupted, c95_half, c95_sided, c95_stale, c95_no_removal, c98_strings, c98_order, c98_unordered, c98_one_kind, c98_frozensets, c98_texts, c98_nonid, c99_sort_whats, c99_sort_whatids, c99_scalars |
| Quot.sound | c36_get |
| Quot.sound, propext | c01_insertion_order, c04_shape, c04_defined, c05_maxlength, c05_positional, c10_terminates, c10_terminates_rule, c10_progress, c100_plain, c101_each, c101_alone, c101_unaffected, c101_finishes, c101_mixture, c102_plain, c102_coerced, c103_raises, c103_object, c103_unstable, c104_order, c105_stack, c107_exact, c107_order, c107_raises, c107_flat, c108_tree, c108_confused, c11_layouts, c13_out_without_parameters, c14_never_consulted, c15_declining, c15_after_capture_all, c15_declining_id, c16_insert, c16_drop, c16_drop_insert, c16_nodup, c19_paths, c19_flat, c19_recursive_adds, c20_get_name, c21_frame, c21_copy, c21_copy_apart, c21_deep_apart, c21_original_apart, c21_set_copy, c21_history, c21_reachable_ok, c21_stands, c21_one, c21_id, c21_possible, c22_whatadd, c23_no_memory_partial, c23_leak, c23_has_memory, c25_exact, c26_precedence, c26_keys, c27_curry2partial, c27_curry_swapped, c29_remove, c29_lookups, c33_single, c33_batch, c33_add, c33_history, c34_contents, c35_succeeds, c35_reserved, c35_nothing, c35_what, c36_get_one, c36_unique, c36_unique_total, c37_missing, orders_strings, c40_nonids_too, c41_disjoint, c41_oldid2what, c41_same_as_new, c41_double_out, c41_braces, c42_call_dict, c43_maybe_import_partial, c43_single_partial, c43_not_first, c43_propagates, c44_required, c44_init, c45_posts, c48_total, c48_error, getAttr_unique, c49_columns, c49_succeeds, c49_raises, c49_unparsed, c50_compose, c51_defaults, c51_posts, c53_freezes, c53_call, c53_positional, c53_refused, c55_total, c55_object, c55_class, c55_accepts, c55_error, c55_again, c55_same_attributes, c58_forced, c59_declared, c59_params, c59_inspected, c61_found, c61_ignored, c61_strict, c62_class, c62_defined, c62_hierarchy, c63_unambiguous, c64_is_whatable, c65_sharing, c66_complete, c66_dropped, c68_rows, c68_defined, c68_history, c70_fqn, c70_errors, c70_import, c70_nested, c70_distinct, c71_sorted, c73_expression, c78_callable, c78_call, c79_exponential, c79_at_least, c80_remove_nick, c81_call, c81_frame, c81_untouched, c81_reachable, c81_new, c81_override, c81_get, c81_record, c81_copy, c81_add, c81_not_independent, c83_is_whatable, c83_decorated, c83_after, c83_marks, c83_force, c83_refused, c84_says, c84_partial_misfit, c84_blind, c85_accepts, c85_what, c85_history, c85_not_checked, c86_kept, c86_returned, c86_quiet, c86_once, c89_register, c89_add_refuses, c89_column_refuses, c89_unique, c89_call_dict, c89_member, c89_object, c91_again, c92_silent, c92_cut, c92_unstable, supported_positionable, c95_nothing_else, c95_half_done, c95_race, c95_race_reset, c96_any, c96_later, c96_apart, c96_race, c97_alone, c97_unique, c97_twice, c97_lost, c98_mixed, c98_two_kinds |
| none | c29_reset, c56_state |
| propext | c05_equal, c05_positional_equal, c102_weak, c106_stack, c16_failure, c16_reset, c20_get, c31_mismatch_partial, c31_always_raises, c32_atomic, c38_bad_template, c39_none, c39_string, c39_what, c39_whatable, c39_id_method, c39_inspected, c39_idempotent, c39_only_none, c43_member_variants, c46_set_what, c49_missing, c50_one, c54_behaves, c54_again, c54_partial_lost, c54_inplace_confused, c58_import, c59_tables, c59_undeclared, c60_not_older, c61_forgotten, c62_iterator, c66_same, c66_same_id, c66_has, c69_keys, c69_entries, c69_defined, c69_ids, c70_use_class, c76_check_raises, c78_mixin, c81_shared, c81_list, c82_circle, c84_classes, c86_conservative, c86_history, c86_overwritten, c86_no_rollback, c87_simple, c93_runs_repr, c93_reads, c93_self, c94_not_from_id, c94_nonids, c95_half_reset, c96_alone, c97_any |
<!-- /axioms -->

* The reading of the Python code: that each definition does what the cited lines do. It was not run (no dependencies here).
* The semantics of CPython written into `Basic`, `PyEq`, `Classes`, `Heap`: dicts keep insertion order; `str` is a list of
  Unicode code points compared lexicographically; `sorted` is a stable sort; `str.replace` is leftmost and non-overlapping; no
  limit on the digits of an int; ASCII `\d`.
* The semantics of arpeggio (>= 1.5) written into `Peg`: ordered choice, greedy repetition, whitespace skipped before every match
  (`skipws`), `Optional`/`ZeroOrMore` results flattened, terminals as in `Match`, visitors bottom-up with `SemanticActionResults`,
  `visit_` methods dispatched by rule name, suppressed unnamed string matches.
* Parameters, i.e. things quantified over in the theorems and left unspecified: the sha1 digest; `float()`/`repr` on texts
  (`floatOf`; C46 and the round trips assume that repr of a float reads back: `SaneEnv`, `Loadable`); importing by name (`imp`,
  `importMember`); `is_iterable` and iteration of unmodelled objects; the id extractor and postprocessors of a Recorder; the
  comparison of incomparable values in sorts; the iteration order of sets where the code iterates over one.
* Recursion limits: the model has none. `build` and the parser are defined with a bound on recursion, and
  `build_eq`, `c10_terminates` prove that the bound is never reached, so they satisfy the unbounded equations.
  (`Stack` and `Cyclic`, claims C92 and C103, do count frames.)

## Not modelled

* `__getattr__` hooks, metaclass attributes, data descriptors other than slots and properties that misbehave on class access.
* `is_iterable` beyond what the recorder needs.
* `to_df` and `whatid2columns` beyond named columns (index, dtypes); numpy/pandas hashing (the hash is a string).
* `minijoblib` beyond `Arrays`, `Hasher`, `HashFail` and `HashGraph`: tuples and sets that contain themselves, objects with a `__reduce__` or slots of their own, arrays of Python objects; Python 2 behaviour; threads other than on registry, recorder and plugin list (C95-C97, C101).
* The rendering `str(v)` of values that reach the capture-all plugins only in custom chains.

## Findings (the code does not do what it says)

1. parse_whatid('out=f()') raises ValueError (c13_out_without_parameters).
2. Nested names and out_names starting with None/True/False/inf/nan do not parse (example at c13).
3. Leading whitespace of string values is lost on parsing (excluded by `GoodBody`).
4. Strings ending in an odd number of backslashes, or with an even number of them before a quote, give ids that do not parse; quotes
   stay escaped after parsing, so sets with strings that differ only in that merge.
5. Sets with a What in them raise TypeError on parsing (c13_set_of_whats); frozensets come back as sets; `set()` is printed both
   for the empty set and for a What named set (c46_set_what).
6. `<class 'str'>` raises ValueError, classes that cannot be imported come back as {'class': ...}; complex and bytes do not parse;
   the type int prints as a What named int would.
7. what() of a whatable function shares one configuration dictionary with every What it returned (C23: c23_has_memory); the
   decorator ignores `non_id_keys` and uses `excludes` in their place.
8. A whatable class as a value raises TypeError (C17: c17_raises).
9. WhatamiRegistry.remove(nickname, what) looks the nickname up among the ids (C31: c31_always_raises, c31_iff).
10. Recorder: dealing to an id 'default', 'self' or not a string raises TypeError (c35_reserved); `_record_postprocessors` is the
    caller's own list, mutated by `+=`; an iterator passed as record_postprocessors serves the first record only; a What passed as
    `ids` raises KeyError.
11. trim_dict with an empty or None prefix or postfix drops everything (c25_empty_affix).
12. callable2call reverses positional arguments of a partial over a toolz curry (c27_curry_swapped), raises if a defaulted
    parameter is set by position, drops positional arguments of builtins.
13. maybe_import returns the last importable variant, not the first (c43_not_first); maybe_import_member with any variant raises
    TypeError (c43_member_variants).
14. match_whatids ignores the out_name of the ids, takes a What for the tuple of its name and out_name, and a template with nan does
    not match itself; ignoring (k,) ignores what is below k but not k; an iterator as ignored_keys serves one key only.
15. sort_whats([]) is (); sort_whats and sort_whatids iterate their input twice: a generator gives an empty result.
16. Old ids: `{}` raises IndexError (c41_braces); `"set#"` and quoted names starting with a reserved word are converted to ids that do
    not parse back; unquoted nested ids swallow all parameters to their right.
17. list_plugin ignores the attributes of list subclasses while whatareyou reports them; to_dict converts only Whats at top level.
18. A whatable object with `__call__`: what() raises AttributeError, so that it is silently not whatable when nested.
19. One never-assigned slot makes config_dict_for_object raise AttributeError (example at c48).
20. whatid2columns: a parameter called like the id column overwrites it (example at c49); columns=None includes nested parameters.
21. Read in the code, outside of the model: the sklearn wrapper computes `_SKLShort2Long` from an empty registry.
22. whatable(whatable(partial(f, ...))) reports `whatablefunc()` and partial(whatable(partial(...)), k=v) cannot be decorated
    (c54_partial_lost); a closure over one function decorated in place and then decorated again reports the captured function
    (c54_inplace_confused); partial(whatable(f), k=v) as a value in a configuration raises ValueError (the partial plugin does not
    look into the wrapper).
23. whatable(obj, excludes=...) without 'what' among the excludes puts the bound method into the id (c55_excludes).
24. A column named `add` cannot be frozen with padd.
25. Strides are hashed with arrays: equal arrays of different layout have different ids (c56_layout). Masks of masked arrays are not
    hashed (c56_state).
26. An undeclared sklearn class without get_params: what() raises AttributeError (c59_undeclared).  With an unsupported version the
    next newer declarations are applied, not the older ones the comment announces (c60_not_older).
27. all_subclasses lists a class once per inheritance path (c57_nodup).
28. import_submodules(p, ignore_errors=False) ignores errors below the first level (c61_forgotten).
29. decorate_some with an iterator of decorators decorates the first class only (c62_iterator); an attribute called `name` cannot be
    decorated.
30. force_flag_as_whatami on an object with a method what raises AttributeError on Python 3 (bound methods take no attributes, what.py:533-534; c83_force);
    on a class that inherits its what it marks the base class too (c64_forced).
31. A nested `set()` is the empty set but `set ()` is the id of a What called set (Spec/Meaning, example at c63).
32. minijoblib's hash depends on identities: `[x, x]` and `[x, y]` with equal lists x, y hash differently (c65_sharing); a dict whose
    keys cannot be compared hashes like the dict keyed by their hashes (c65_collision); frozensets, and sets of elements that are
    only partially ordered, hash by their order of iteration (c65_frozenset, c65_partial_order).
33. A path that asks a number, a sequence or None for a name raises AttributeError (from `.what`), not KeyError, so `what.get(path, default)`
    and whatid2columns raise instead of giving the default (c50_raises, c49_raises).
34. setup.py lists pandas and numpy as optional, but without pandas every id with a number, boolean, None or class in it raises ImportError
    with the default plugins, as the stand-in `pd` is never None (c66_without_pandas, plugins.py:232-236). has_numpy() raises ImportError
    without numpy and has_pandas() is True without pandas (c66_has).
35. Equal Whats may have different ids (c67_not_ids); Whats define `__eq__` without `__hash__`, hence finding 5 on sets.
36. to_df raises KeyError if a postprocessor left a record without columns (c68_defined).
37. Nested classes cannot be imported by their fqn (c70_nested).
38. RepeatedKFold inherits from a base that is patched but is not declared: its what() raises AttributeError (c76_repeated_kfold).
39. FunctionLike objects inspected by force (c78_callable), or called through functools.partial, show their class name only: partials of
    different ones have the same id. name_override and the options of obj2what are ignored for whatable objects (c78_like, c78_decorated).
40. The parser takes exponential time on texts with open braces (c79_exponential): `{` is tried as a set before it is tried as a dict, the
   whole first element is read in both, and arpeggio's memoization is off (parsers.py:120). Ids that load are not affected (c79_loads).
41. A nickname may be the id of another configuration (c80_confused): `nick_or_id` then returns the same text for both.
42. A Recorder keeps the (non-empty) list of postprocessors it is made with, and `add_record_postprocessors` extends it in place: recorders made
   with one list get each other's postprocessors (c81_shared, c81_not_independent). `add` and `get` hand out the stored dicts (c81_record).
43. whatable(obj, whatfunc=f) with an f that gives no What is accepted, and the object cannot be decorated again (c83_stuck); it marks f, so a class that has f
   as its method becomes whatable (c83_marks).
44. whatareyou says nothing about what is in a string, a frozenset or a set of a subclass: `whatareyou("a")` and `whatareyou("b")` both have the id
    `str()` (c84_blind); what.py:347 lists list, tuple, set and dict only.
45. whatable(f, whatfunc=w) is not checked: the result counts as whatable although w raises or gives no What (c85_not_checked). With w = whatareyou and not in
   place all parameters are lost (c85_whatareyou): whatareyou does not look through the wrapper that whatable itself made.
46. A postprocessor that calls the recorder's `add` for the id it is called for: the nested call succeeds and returns a record, and the outer one replaces it
   without an exception, because ids are checked before the postprocessors run and not when records are committed (c86_overwritten). What nested calls added
   stays when the outer call fails (c86_no_rollback).
47. `insert` and `drop` build their error message with `plugin.__name__`: for a plugin without one, such as the `partial(anyobject0x_plugin, deep=True)` the project's own test inserts, the documented ValueError is an AttributeError (`c16_failure`).
48. Ids identify configurations even where they cannot be read back: strings whose quotes and backslashes make the id a syntax error (finding on C13) never collide with anything else. The only collision between values that differ is that of an empty set with a What called `set` without visible parameters (likewise `frozenset`) (C90).
49. Reading an id back silently changes a configuration in more ways than losing its order (C91): leading whitespace of strings is dropped, quotes gain a backslash, frozensets become sets, a nested `What('set', {})` becomes the empty set, parameters that do not show are gone; set elements and dict keys that only differ in these ways are merged, and for dict keys the value kept is that whose *text* comes last.
50. minijoblib hashes the data of arrays before everything else, and in their place pickles a tuple: an array without data is hashed like that tuple, and any array may change
   places with it (`c65_empty_array`, `c65_swapped`).
51. `is_whatable` (what.py:391-394) catches RecursionError with everything else. Near the recursion limit a whatable object is therefore taken for one that is not, and falls through to the plugin for any object, which writes `A()`. Deeply nested or cyclic whatable objects (a parent pointer) do not raise RecursionError: they get a truncated id `A(x=A(x=...A()...))`, the same for objects that differ further inside, and different at different stack depths (c92_cut, c92_collide, c92_unstable).
52. `callable2call` (misc.py:330) formats its argument with `%r` for an error message that `whatareyou` then throws away: describing any object that is not callable runs its `repr()`. An object with `def __repr__(self): return self.what().id()` therefore recurses for ever, an object whose `__repr__` raises is silently not whatable inside configurations (`A()`), and `whatareyou` of a large collection makes its whole `repr()` for nothing (c93_self, c93_lost). Likewise a raising property or a slot never assigned (finding 19) turns a whatable object inside a configuration into `A()`, silently (c93_unset).
53. `positional_id` and `flatten` look into values that are instances of `What`, not into whatable objects: `f(a=g(x=1))` with a What `g` has positional id `f(g(x=1),1)`, with an object whose `what()` is that What `f(g(x=1))`, although their ids are the same; and the first is also the positional id of the second with one more parameter (c94_not_from_id). With `non_ids_too=True` the non-id parameters of nested Whats are listed, though the full id (`str(what)`) never shows them (c94_nonids).
54. `register` and `remove` change two dictionaries one after the other, without a lock. If a KeyboardInterrupt comes between, or two threads register one nickname for two ids, the registry is not one-to-one any more, and `remove` cannot remove what was left (KeyError): only `reset`, or registering the very same pair again, puts it right (c95_half, c95_stale, c95_race).
55. `Recorder.add` checks that ids are new and commits later, without a lock: two threads that add the same id may both return normally, and the record that one of them returned is not in the recorder (c96_race). (Re-entrant calls from postprocessors do the same: C86.)
56. `insert` reads `PLUGINS` twice and writes it later, without a lock: two threads that insert the same plugin may both return normally and leave it twice (`drop` then removes only one), and concurrent insertions and removals may be lost although both calls returned normally (c97_twice, c97_lost).
57. `What.id` sorts all items before it leaves out those that are not for the id: a single non-id key that is not a string makes id() raise TypeError although it has no part in it, while keys() (which filters first) works (c98_nonid).
58. Keys that are not strings: `{1: v}` and `{'1': v}` share an id although they differ, `{1: v}` and `{True: v}` are equal but their ids differ, and with frozensets or NaN as keys the id depends on insertion order (c98_texts, c98_frozensets).
59. Fractions and Decimals compare with integers but not with each other. Whether sorting `{Fraction(1, 2), 1, Decimal(2)}` raises TypeError depends on the pairs `sorted` happens to compare, so that minijoblib's hash of the same set or dict depends on its order of iteration (c100_some_pairs).
60. An id that is made while another thread inserts or drops a plugin may be a mixture that no plugin list gives: the same value is shown in two ways within one id (c101_mixture).
61. hasher(obj, coerce_mmap=True) tells memory maps from arrays inside set elements and dict keys that cannot be sorted: `hasher(e)` and `hasher(k)` there do not pass the options on (c102_inside).
62. For the same reason hasher(obj, hash_name='sha1') collides wherever the md5 hashes of such elements or keys collide (c102_weak).
63. Whatable objects that refer to one another in a loop (parent and child) get an id that depends on the stack that was left when it was asked for, without any error (c103_object, c103_unstable; c103_silent for all such loops); the same loop of plain containers raises RecursionError (c103_raises). Same cause as 51.
64. minijoblib's hasher swallows the TypeErrors of values that cannot be pickled (generators, locks, modules, open files) when they are under a dict or an attribute: `_batch_setitems` takes them for keys that cannot be sorted and starts again, and the second time refers to what is already in the memo, half written. hasher({'a': [gen, 2]}) == hasher({'a': [gen, 3]}), without any error (c104_hidden, c104_never); hasher([gen, 2]) raises (c104_bare).
65. The workaround of `save_global` for classes defined in IPython never runs: the handler of PicklingError first makes the same call, which raises again (c104_named).
66. Configurations that contain themselves are equal to themselves and to their `copy()`, but comparing one with its `copy(deep=True)` raises RecursionError (c106_copy_deep); whether comparing two that differ gives False or raises depends on the order in which parameters were inserted (c106_order).
67. `repr` of configurations that contain themselves ends where `id()` and `==` with a deep copy raise RecursionError, but two that differ may have the same `repr` (c108_confused): `[...]` does not say which list it is.
