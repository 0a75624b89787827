{"id": "C01", "title": "Id does not depend on parameter insertion order", "statement": "Two What objects with the same name, out_name and non-id keys whose configuration dictionaries hold the same items in a different insertion order have the same id() (and the same id(nonids_too=True)), or both raise.", "quantifier": "every What, every permutation of its configuration items, every plugin chain", "why_tests_cant": "Needs every permutation of every configuration; a test only tries a few literal dictionaries, and on a given interpreter the iteration order is fixed.", "anchors": ["whatami/what.py:What.id"]}
{"id": "C02", "title": "Id does not depend on dict/set iteration order at any depth", "statement": "Reordering the items of any dict, the elements of any set or frozenset, or the parameters of any nested What, at any nesting depth, leaves the id string unchanged (under the default plugins).", "quantifier": "every value built from the supported types, every reordering at every depth", "why_tests_cant": "Set order depends on hash seeds and insertion history; depth and number of reorderings are unbounded.", "anchors": ["whatami/plugins.py:dict_plugin", "whatami/plugins.py:set_plugin", "whatami/what.py:What.id"]}
{"id": "C03", "title": "Non-id parameters never change the id", "statement": "Changing the value of, adding, or removing a parameter whose key is in non_id_keys leaves id() unchanged, also when the What is nested at any depth inside other configurations.", "quantifier": "every What, every set of non-id keys, every change confined to non-id keys, at every nesting depth", "why_tests_cant": "The claim is about all values a non-id parameter may take and every context it is nested in.", "anchors": ["whatami/what.py:What.id", "whatami/plugins.py:what_plugin"]}
{"id": "C04", "title": "Exact shape of the id", "statement": "id() is [out_name=]name(k1=s1,...,kn=sn) where k1<...<kn are exactly the configuration keys that are not non-id keys (all keys with nonids_too=True, as in str(what)), each once, and si is what the plugin manager builds for the value of ki.", "quantifier": "every What, both values of nonids_too, every plugin chain", "why_tests_cant": "Completeness ('every id parameter appears, once, with its own value') quantifies over all configurations.", "anchors": ["whatami/what.py:What.id", "whatami/what.py:What.__str__"]}
{"id": "C05", "title": "maxlength contract", "statement": "id(maxlength=m) and positional_id(maxlength=m) return the full string when m<=0 or the string is at most m long, and otherwise the sha1 digest of the full string; hence objects with equal ids have equal trimmed ids, and the result is never longer than max(m, digest length) when m>0.", "quantifier": "every What, every integer maxlength (also negative), every plugin chain", "why_tests_cant": "Boundary at every length; holds for every digest function.", "anchors": ["whatami/what.py:What._trim_too_long", "whatami/what.py:What.id", "whatami/what.py:What.positional_id"]}
{"id": "C06", "title": "Round trip: parsing an id gives back the configuration", "statement": "For every What built from None, booleans, integers, floats, strings, tuples, lists, sets, dicts, importable classes and nested Whats (identifier names and keys, no non-id keys; strings, nested names and set elements inside the documented limits), parse_whatid(w.id()) succeeds and equals w up to the iteration order of dicts and sets.", "quantifier": "every well-formed What, arbitrary nesting depth and sizes", "why_tests_cant": "Unbounded nesting and arbitrary string contents; PEG ordered choice makes rare prefixes matter.", "anchors": ["whatami/parsers.py:parse_whatid", "whatami/parsers.py:build_whatami_parser", "whatami/parsers.py:WhatamiTreeVisitor", "whatami/what.py:What.id"]}
{"id": "C07", "title": "Re-generating the id of a parsed id is the identity", "statement": "For every What in the supported fragment (strings may contain single quotes, non-id keys allowed), parse_whatid(w.id()).id() == w.id().", "quantifier": "every What of the fragment", "why_tests_cant": "Quantifies over all string contents and nestings.", "anchors": ["whatami/parsers.py:parse_whatid", "whatami/plugins.py:string_plugin", "whatami/what.py:What.id"]}
{"id": "C08", "title": "Ids identify: equal ids imply equal configurations", "statement": "Two well-formed Whats with the same id string are equal (same name, out_name and parameters, up to dict/set order): no two different configurations collide.", "quantifier": "every pair of well-formed Whats", "why_tests_cant": "Collision-freedom is a statement about all pairs of objects.", "anchors": ["whatami/what.py:What.id", "whatami/plugins.py:WhatamiPluginManager.build_string"]}
{"id": "C09", "title": "String quoting: no double escaping, every quote escaped", "statement": "The id of a string is a single-quoted body in which every single quote is immediately preceded by a backslash; the body of an already quoted body is itself (escaping is idempotent), and two strings get the same id exactly when they differ only in which of their single quotes are already escaped.", "quantifier": "every pair of strings", "why_tests_cant": "All runs of backslashes and quotes, any length.", "anchors": ["whatami/plugins.py:string_plugin"]}
{"id": "C10", "title": "Parsing always terminates", "statement": "parse_whatid returns or raises for every input string: rule recursion on any input never goes deeper than a fixed multiple of the number of characters left, and repetition never loops without consuming input.", "quantifier": "every input string, for both the current and the old grammar", "why_tests_cant": "Termination on all inputs cannot be tested.", "anchors": ["whatami/parsers.py:build_whatami_parser", "whatami/parsers.py:build_oldwhatami_parser"]}
{"id": "C100", "title": "minijoblib's hash does not depend on how Python sorts", "statement": "hasher(obj) sorts the keys of dicts and the elements of sets, and falls back on their hashes if a comparison raises TypeError. Whatever stable sort `sorted` is, and whichever pairs it compares: if keys and elements are of kinds such that those of one kind are ordered and those of two kinds cannot be compared, then `sorted` raises exactly if there are two kinds, and the hash is the same for every sort, every order of iteration of dicts and sets, and all identities. Strings, integers and booleans, and None are such kinds.", "quantifier": "all values, all stable comparison sorts (two different ones for two values with the same contents), all orders of iteration", "why_tests_cant": "ranges over all sorting algorithms, values and orders of iteration; CPython's own sort asks for different pairs in every order", "anchors": ["whatami/minijoblib/hashing.py:_ConsistentSet", "whatami/minijoblib/hashing.py:Hasher._batch_setitems", "whatami/minijoblib/hashing.py:hasher"]}
{"id": "C101", "title": "Ids that are made while other threads change the plugin list", "statement": "Threads may insert, drop and reset plugins while another thread makes an id. Every call of build_string for that id goes through one list, first match first, and that list was the plugin list at some moment. If nobody writes the list meanwhile, or only plugins are inserted and dropped that decline everything in the configuration (and the built-in data types), the id is the one that a lone thread makes. The thread that makes the id waits for nobody. But the id as a whole need not be that of any list: one value may be shown in two ways within one id.", "quantifier": "all configurations, chains of plugins (user plugins that call build_string included), numbers of threads, calls and schedules", "why_tests_cant": "ranges over all interleavings of an id with the calls of other threads", "anchors": ["whatami/plugins.py:WhatamiPluginManager.build_string", "whatami/plugins.py:WhatamiPluginManager.insert", "whatami/plugins.py:WhatamiPluginManager.drop", "whatami/plugins.py:WhatamiPluginManager.reset", "whatami/what.py:What.id"]}
{"id": "C102", "title": "The options of minijoblib's hash", "statement": "hasher(obj, hash_name, coerce_mmap): hash_name changes nothing but the function that everything goes to at the end. With coerce_mmap, two values have the same hash exactly if they are the same once arrays take the place of their memory maps. But neither option reaches the keys of dicts and elements of sets that cannot be sorted: a memory map inside such an element is told from an array in spite of coerce_mmap, and if the md5 hashes of two such elements collide, so do the hashes of the sets or dicts, whatever hash_name says.", "quantifier": "all values, hash functions and classes of memory maps", "why_tests_cant": "ranges over all values and hash functions", "anchors": ["whatami/minijoblib/hashing.py:hasher", "whatami/minijoblib/hashing.py:NumpyHasher.save", "whatami/minijoblib/hashing.py:_ConsistentSet", "whatami/minijoblib/hashing.py:Hasher._batch_setitems"]}
{"id": "C103", "title": "Configurations that contain themselves", "statement": "build_string (and so What.id) on values in memory that refer to one another, perhaps in loops. If what ids show of a value goes on for ever and no whatable object is in it, RecursionError is raised, whatever the size of the stack; if it ends, there is a text, the one of the value written out as a tree (how items are shared does not matter, nor what parameters outside ids refer to), and the size of the stack can only make it raise, never change it. With finitely many values it goes on for ever exactly if one of them shows itself at some remove. Loops of whatable objects do not raise: the id is cut where the stack ends, so that it depends on how deep in the program it is asked for.", "quantifier": "all memories (also infinite ones), addresses, sizes of the stack and frame counts", "why_tests_cant": "ranges over all object graphs and stack sizes, and says of every stack that it is too small", "anchors": ["whatami/plugins.py:WhatamiPluginManager.build_string", "whatami/plugins.py:list_plugin", "whatami/plugins.py:dict_plugin", "whatami/plugins.py:whatable_plugin", "whatami/what.py:What.id", "whatami/what.py:is_whatable"]}
{"id": "C104", "title": "Hashing values that cannot be pickled", "statement": "minijoblib's hasher on values with something inside that cannot be pickled. If everything can be pickled the hash is the usual one. A function or class that is not found under its name gives PicklingError wherever it is (the workaround for IPython never runs). A generator, lock or the like gives TypeError if it is in lists and tuples only; but under a dict TypeErrors are swallowed: a dict of one item whose value is a list, dict or instance never raises TypeError, whatever it has inside, and of two lists that differ after such a thing the hashes collide, whatever the hash function, without any error. The order of the items of dicts never matters.", "quantifier": "all values built of None, ints, strings, tuples, lists, dicts with string keys, instances, functions and classes, and things that raise TypeError; all hash functions", "why_tests_cant": "ranges over all nested values and hash functions; the collision is of infinitely many pairs", "anchors": ["whatami/minijoblib/hashing.py:Hasher._batch_setitems", "whatami/minijoblib/hashing.py:Hasher.save_global", "whatami/minijoblib/hashing.py:Hasher.memoize", "whatami/minijoblib/hashing.py:Hasher.hash", "whatami/minijoblib/hashing.py:hasher"]}
{"id": "C105", "title": "Hashing values that contain themselves", "statement": "minijoblib's hasher on values in memory, which may share parts and contain themselves. It always ends: a value made of n parts has a hash whenever n + 1 calls may be nested, and the hash does not depend on how many may. Two values have the same hash exactly if they have the same shape, barring collisions of the hash function: there is a way to pair off their parts, lists with lists of the same length, dicts with dicts of the same keys in whatever order, instances with instances of the same class, so that no part has two partners. So addresses and the order of dicts make no difference, but sharing and the place where a loop closes do. Where there are no loops it is the hash of the tree.", "quantifier": "all memories of None, ints, strings, functions, lists, dicts with string keys and instances that refer to one another in any way; all depths of the stack; all hash functions", "why_tests_cant": "ranges over all finite graphs of objects, cyclic ones included, and all pairs of them", "anchors": ["whatami/minijoblib/hashing.py:Hasher.save", "whatami/minijoblib/hashing.py:Hasher.memoize", "whatami/minijoblib/hashing.py:Hasher.hash", "whatami/minijoblib/hashing.py:Hasher._batch_setitems", "whatami/minijoblib/hashing.py:hasher"]}
{"id": "C106", "title": "Comparing configurations that contain themselves", "statement": "== of configurations in memory, which may share parts and contain themselves. If it says True no difference can be found however deep one looks, if it says False there is one, and the answer does not depend on how many calls may be nested. Of values without a difference it says True exactly if what has to be compared comes to an end (identical items need not be compared), and else raises RecursionError, whatever the stack. So a configuration is equal to itself and to its copy() whatever is in it, nan and itself included; and it is equal to its copy(deep=True) exactly if it does not contain itself: else that comparison raises. Whether values with a difference give False or RecursionError may depend on the order in which parameters were inserted. Of trees without nan it is the usual equality (C67).", "quantifier": "all memories of None, numbers, strings, tuples, lists, dicts with string keys and Whats that refer to one another in any way; all depths of the stack; both orders in which CPython compares values of dicts", "why_tests_cant": "ranges over all graphs of configurations, cyclic ones included, and all pairs of them", "anchors": ["whatami/what.py:What.__eq__", "whatami/what.py:What.copy"]}
{"id": "C107", "title": "Listing the parameters of configurations that contain themselves", "statement": "what.flatten() (and keys() and values(), which are its two lists) of configurations in memory, which may share parts and contain themselves. If it ends, what it lists are exactly the paths from the configuration to what it contains, each once, with what the path leads to, a path before those that continue it and siblings by name (or index): through parameters (those of the id, or all with non_ids_too), and with collections_too through items of lists and tuples and values of dicts. It ends, with the same list on every stack that is large enough, unless some path can be followed forever; then it raises RecursionError, whatever the stack. With recursive=False it always ends and lists the paths of one step. A list or dict that contains itself therefore does no harm unless collections_too is given, and a configuration that contains itself none if the parameter it is reached by is not one of the id. Of configurations that are trees, whatever parts they share, it is the list of C18.", "quantifier": "all memories of None, numbers, strings, tuples, lists, dicts with string keys and Whats that refer to one another in any way; all options of flatten; all depths of the stack", "why_tests_cant": "ranges over all graphs of configurations, cyclic ones included, all options and all stacks", "anchors": ["whatami/what.py:What.flatten", "whatami/what.py:What.keys", "whatami/what.py:What.values"]}
{"id": "C108", "title": "repr of configurations that contain themselves", "statement": "repr(what) of configurations in memory, which may share parts and contain themselves. If a configuration contains finitely many objects, repr ends on every stack that is large enough (a number of calls linear in the number of objects), with the same text whatever the stack, and on smaller ones gives that text or raises RecursionError; so repr, other than id() and ==, is defined also for configurations that contain themselves. Of a configuration that is a tree, whatever parts it shares, it is the repr of C73, and so tells everything: two trees with the same repr are equal, and no configuration that contains itself has the repr of a tree; but two configurations that contain themselves may have the same repr although they have different values in the same place.", "quantifier": "all memories of values, tuples, lists, dicts and Whats that refer to one another in any way; all depths of the stack; all choices of which characters are printable", "why_tests_cant": "ranges over all graphs of configurations, cyclic ones included, and all stacks", "anchors": ["whatami/what.py:What.__repr__"]}
{"id": "C11", "title": "Whitespace between tokens is irrelevant to the parser", "statement": "Inserting any amount of blanks, tabs and newlines before any token of an id (outside string literals) does not change the parsed What.", "quantifier": "every well-formed What, every insertion of whitespace runs between its tokens", "why_tests_cant": "All amounts and positions of whitespace.", "anchors": ["whatami/parsers.py:build_whatami_parser", "whatami/parsers.py:parse_whatid"]}
{"id": "C12", "title": "Every What the parser returns is well named", "statement": "If parse_whatid(s) succeeds, then the name, the out_name (if any) and all parameter keys of the returned What and of every What nested anywhere in it are ASCII identifiers, and no configuration has a repeated key.", "quantifier": "every input string accepted by the parser", "why_tests_cant": "Ranges over the whole accepted language.", "anchors": ["whatami/parsers.py:parse_whatid", "whatami/parsers.py:WhatamiTreeVisitor"]}
{"id": "C13", "title": "parse_whatid accepts every id generated by What.id()", "statement": "As documented for build_whatami_parser ('accepts any valid whatami generated id string'), every id string of a What with identifier names is accepted by parse_whatid.", "quantifier": "every What with identifier names and keys and values of the supported types", "why_tests_cant": "Ranges over all generated ids; the failing ones are rare prefixes and contents.", "anchors": ["whatami/parsers.py:build_whatami_parser", "whatami/parsers.py:WhatamiTreeVisitor.visit_whatami_id", "whatami/what.py:What.id"]}
{"id": "C14", "title": "Plugin chain is first-match", "statement": "build_string(v) is the string returned by the first plugin of the chain that does not decline (or the exception of the first plugin that raises); later plugins are never consulted.", "quantifier": "every chain, every value", "why_tests_cant": "All chains and values.", "anchors": ["whatami/plugins.py:WhatamiPluginManager.build_string"]}
{"id": "C15", "title": "Plugins that decline are invisible", "statement": "Inserting anywhere a plugin that declines (returns None for) every value changes no id, however deeply nested; so does inserting any plugin at the very end of a chain that ends with the capture-all plugin.", "quantifier": "every chain, every position, every value at every nesting depth", "why_tests_cant": "All chains, positions and values.", "anchors": ["whatami/plugins.py:WhatamiPluginManager.insert", "whatami/plugins.py:WhatamiPluginManager.build_string"]}
{"id": "C16", "title": "Plugin list bookkeeping over any history", "statement": "After any sequence of insert, drop and reset calls (failing ones included) the plugin list has no duplicates; insert adds exactly the new plugin, immediately before `before` (at the end for None), keeping the order of the others; drop removes exactly the plugin; drop undoes insert; a failing call raises ValueError (AttributeError if the plugin in the way has no `__name__`, as partials have none) and changes nothing; reset restores the defaults.", "quantifier": "every finite history of calls", "why_tests_cant": "All histories.", "anchors": ["whatami/plugins.py:WhatamiPluginManager.insert", "whatami/plugins.py:WhatamiPluginManager.drop", "whatami/plugins.py:WhatamiPluginManager.reset"]}
{"id": "C17", "title": "Default plugins always produce a string", "statement": "With the default chain build_string(v) never returns None: for every value it returns a string or raises; it raises exactly if something that shows in v (v itself, an element, an item, an id parameter, a public attribute of a whatable object, a default, a bound argument, at any depth) is a builtin function, a dynamic property, a whatable class or a partial with an inconsistent signature. What does not show, such as the non-id parameters, never makes it raise.", "quantifier": "every value", "why_tests_cant": "Every value of every supported type at any nesting.", "anchors": ["whatami/plugins.py:WhatamiPluginManager"]}
{"id": "C18", "title": "flatten keys address their values", "statement": "what.flatten() returns two lists of the same length and for every position i, what[keys[i]] is values[i], for every combination of non_ids_too, collections_too and recursive.", "quantifier": "every What with string keys, all flag combinations, any nesting of Whats, lists, tuples and dicts", "why_tests_cant": "Unbounded nesting of different container kinds.", "anchors": ["whatami/what.py:What.flatten", "whatami/what.py:What.__getitem__"]}
{"id": "C19", "title": "keys()/values() cover exactly the id parameters", "statement": "what.keys(recursive=False) is the sorted list of the keys that are not non-id keys (all keys with non_ids_too=True), each once, and values(recursive=False) the corresponding values; recursive=True only adds entries: it lists every parameter at any depth (through Whats that are values of Whats) exactly once, under the names that lead to it, parameters before their own parameters and siblings by name.", "quantifier": "every What", "why_tests_cant": "Ranges over all configurations.", "anchors": ["whatami/what.py:What.flatten", "whatami/what.py:What.keys", "whatami/what.py:What.values"]}
{"id": "C20", "title": "get agrees with []", "statement": "what.get(k, d) returns what[k] when that lookup succeeds, d when it raises KeyError, and propagates any other exception.", "quantifier": "every What, key (plain or tuple) and default", "why_tests_cant": "All keys and nestings.", "anchors": ["whatami/what.py:What.get", "whatami/what.py:What.__getitem__"]}
{"id": "C21", "title": "Copies are independent", "statement": "Over any sequence of constructor, copy, set (in place or copy=True) operations, an operation on a copy never changes what id() the original returns, and set(k, v, copy=True) never changes the receiver.", "quantifier": "every history of operations on any number of What objects", "why_tests_cant": "Aliasing is a property of histories.", "anchors": ["whatami/what.py:What.copy", "whatami/what.py:What.set"]}
{"id": "C22", "title": "whatadd", "statement": "whatadd(what, key, values) raises ValueError iff key is already a parameter, otherwise returns one id per value, in order, each equal to the id of `what` with key set to that value; `what` itself is not modified.", "quantifier": "every What, key and list of values", "why_tests_cant": "Any number of values; depends on state carried between iterations.", "anchors": ["whatami/whatutils.py:whatadd"]}
{"id": "C23", "title": "whatable functions have no memory", "statement": "what() of a decorated function always reports the function's configuration: using or modifying a What obtained from it does not change what later calls to what() report.", "quantifier": "every history of what() calls and set() operations on their results", "why_tests_cant": "History property (aliasing).", "anchors": ["whatami/what.py:whatable"]}
{"id": "C24", "title": "Private and fitted attributes never change the id", "statement": "For an object made whatable with the defaults, and whose class does not define __call__ (what() raises AttributeError on those), attributes whose names start or end with '_' (and 'what') never influence what().id(), and the id does not depend on the order in which attributes were set; also when the object is nested in another configuration.", "quantifier": "every object state, every change confined to such attributes", "why_tests_cant": "All attribute values and nestings.", "anchors": ["whatami/misc.py:trim_dict", "whatami/misc.py:config_dict_for_object", "whatami/what.py:whatareyou"]}
{"id": "C25", "title": "trim_dict keeps exactly the allowed keys", "statement": "trim_dict returns exactly the items whose key does not start with exclude_prefix, does not end with exclude_postfix and is not in excludes, values untouched; with an empty or None prefix or postfix nothing is kept.", "quantifier": "every dictionary and every prefix, postfix and exclusion list", "why_tests_cant": "All strings.", "anchors": ["whatami/misc.py:trim_dict"]}
{"id": "C26", "title": "config_dict_for_object precedence", "statement": "An attribute found in several enabled sources takes the value of the strongest: properties over slots over instance __dict__ over class attributes; disabled sources contribute nothing; every attribute of an enabled source appears once.", "quantifier": "every object and flag combination", "why_tests_cant": "All overlaps among sources.", "anchors": ["whatami/misc.py:config_dict_for_object"]}
{"id": "C27", "title": "callable2call reports the call that will happen", "statement": "For a (possibly nested) functools.partial application of a python function, the reported parameter dictionary is exactly the binding that calling the partial would give to the bound parameters, plus the remaining defaults; an outer keyword overrides an inner one, which overrides a default.", "quantifier": "every function signature, every nesting of partials", "why_tests_cant": "Unbounded nesting of partials and argument lists.", "anchors": ["whatami/misc.py:callable2call", "whatami/misc.py:curry2partial"]}
{"id": "C28", "title": "Registry is a bijection in every reachable state", "statement": "After any sequence of register, remove and reset calls (failing ones included), nick2id and id2nick are inverse of each other: nick2id(n)==i iff id2nick(i)==n, no nickname has two ids, no id has two nicknames.", "quantifier": "every history of operations with arbitrary ids and nicknames", "why_tests_cant": "All histories.", "anchors": ["whatami/registry.py:WhatamiRegistry"]}
{"id": "C29", "title": "Registry refines a partial bijection", "statement": "register(w,n) succeeds iff neither the id nor the nickname is bound to something else, then adds exactly that pair; remove by nickname or by what deletes exactly that pair; every other pair is untouched; nick_or_id returns the nickname if bound and else the id; list() is the sorted list of pairs; reset empties.", "quantifier": "every reachable state and every call", "why_tests_cant": "All histories.", "anchors": ["whatami/registry.py:WhatamiRegistry.register", "whatami/registry.py:WhatamiRegistry.remove", "whatami/registry.py:WhatamiRegistry.list", "whatami/registry.py:WhatamiRegistry.nick_or_id"]}
{"id": "C30", "title": "Failing registry calls change nothing", "statement": "A register or remove call that raises leaves the registry exactly as it was.", "quantifier": "every reachable state and every failing call", "why_tests_cant": "remove performs two deletions in sequence; only an invariant excludes the half-done state.", "anchors": ["whatami/registry.py:WhatamiRegistry.register", "whatami/registry.py:WhatamiRegistry.remove"]}
{"id": "C31", "title": "remove with both nickname and what", "statement": "If nickname and what correspond to a single entry, remove(nickname, what) deletes that entry (as documented); otherwise it raises ValueError.", "quantifier": "every reachable registry and pair", "why_tests_cant": "All states.", "anchors": ["whatami/registry.py:WhatamiRegistry.remove"]}
{"id": "C32", "title": "Recorder.add is atomic", "statement": "If add raises, whatever the reason (duplicate id, clash with the id column, failing postprocessor, bad column spec), no record of that call is in the registry.", "quantifier": "every recorder state, every call, every postprocessor chain that does not itself write to the recorder", "why_tests_cant": "Failure can happen at any record of a batch and at any postprocessor.", "anchors": ["whatami/registry.py:Recorder.add"]}
{"id": "C33", "title": "Recorder is append-only with unique ids", "statement": "Over any sequence of add calls, existing records are never changed, removed or reordered; a successful add appends one record per id, in order, and returns exactly these; ids in the registry are unique; len is the number of records.", "quantifier": "every history of add calls", "why_tests_cant": "All histories.", "anchors": ["whatami/registry.py:Recorder.add", "whatami/registry.py:Recorder.get", "whatami/registry.py:Recorder.__len__"]}
{"id": "C34", "title": "Recorder record contents", "statement": "Without postprocessors, a record holds its id under the id column, the value given for each column, the column default for every defaulted column not given, and nothing else.", "quantifier": "every add call and recorder configuration", "why_tests_cant": "All column sets and defaults.", "anchors": ["whatami/registry.py:Recorder.add", "whatami/registry.py:Recorder._params2dict"]}
{"id": "C35", "title": "Recorder column expansion", "statement": "For a batch of ids: a string or non-iterable value is given to every record; an iterable is dealt position by position (None when too short, rest ignored) if unbox_iterables, else given whole to each; a dict gives each record its own entry and skips records without entry. Two exceptions: dealing an iterable to an id that is not a string or is 'default' or 'self' raises TypeError (the ids become keyword arguments), and a What passed as a value to deal raises KeyError.", "quantifier": "every list of distinct ids, every column value, with the two exceptions stated", "why_tests_cant": "All lengths and ids, including ids that collide with python keyword names.", "anchors": ["whatami/registry.py:Recorder._params2dict", "whatami/registry.py:_DefaultDict"]}
{"id": "C36", "title": "Recorder lookups", "statement": "get(ids...) returns, in argument order, the records of the ids present and silently skips the others; unique(col) is the set of values of that column over the records having it.", "quantifier": "every reachable recorder and argument list", "why_tests_cant": "All states.", "anchors": ["whatami/registry.py:Recorder.get", "whatami/registry.py:Recorder.unique"]}
{"id": "C37", "title": "Sorting whats", "statement": "sort_whats(whats, *keys) returns the same whats, each paired with its values for keys, in non-decreasing order of those values and stable; sort_whatids does the same for ids.", "quantifier": "every list of whats with comparable values", "why_tests_cant": "All lists.", "anchors": ["whatami/whatutils.py:sort_whats", "whatami/whatutils.py:sort_whatids"]}
{"id": "C38", "title": "match_whatids is an order-preserving exact filter", "statement": "match_whatids(ids, template, ignored) returns the sublist, in order, of the ids whose name and flattened keys equal the template's and whose values agree at every key that is neither ignored nor below an ignored key; it is monotone in ignored; a template without nan matches itself.", "quantifier": "every list of ids, template and set of ignored keys", "why_tests_cant": "All ids and key sets.", "anchors": ["whatami/whatutils.py:match_whatids"]}
{"id": "C39", "title": "what2id", "statement": "what2id(None) is None, a string is returned verbatim, a whatable or What gives its id, and what2id applied to its own result is the identity.", "quantifier": "every object", "why_tests_cant": "All objects.", "anchors": ["whatami/whatutils.py:what2id"]}
{"id": "C40", "title": "to_dict mirrors the configuration", "statement": "w.to_dict() has the name, out_name and, for each id parameter of a well-formed w, the parsed value, nested Whats being replaced by their own dictionaries.", "quantifier": "every well-formed What", "why_tests_cant": "Unbounded nesting.", "anchors": ["whatami/what.py:What.to_dict", "whatami/whatutils.py:id2dict"]}
{"id": "C41", "title": "Old ids are converted, never lost", "statement": "id2whatami4(s) returns s unchanged if s is not an old-style id (in particular if parse_whatid accepts it), so that converting twice is converting once. If s is one, the result is the id of the What that parse_whatid gives for the new-style text with the same name and parameters, the 'out=' prefix becoming the parameter out; it parses back to that What. A doubly given out raises ValueError; an old-style id with `{}` in it raises; nothing else than IndexError, TypeError and ValueError is ever raised.", "quantifier": "every string, in every spacing", "why_tests_cant": "All strings.", "anchors": ["whatami/whatutils.py:oldid2what", "whatami/whatutils.py:id2whatami4", "whatami/parsers.py:build_oldwhatami_parser"]}
{"id": "C42", "title": "call_dict precedence", "statement": "call_dict returns the caller's named parameters minus the ignored ones, updated with its **kwargs, then overrides, then keyword overrides, later winning; it raises exactly when there are positional varargs and they are not ignored.", "quantifier": "every frame and override dictionaries", "why_tests_cant": "All overlaps.", "anchors": ["whatami/misc.py:call_dict"]}
{"id": "C43", "title": "maybe_import picks the preferred variant", "statement": "maybe_import(name, hint, v1, ..., vn) returns the first variant that can be imported (variants are listed by priority) and, if none can, an object that raises ImportError on use.", "quantifier": "every list of variants and importability", "why_tests_cant": "All availability patterns.", "anchors": ["whatami/misc.py:_LazyImportError", "whatami/misc.py:maybe_import"]}
{"id": "C44", "title": "Positional-argument contracts", "statement": "required_args(f) is exactly the list of parameters without default; ensure_has_positional_args(f, args) returns f iff every name in args is such a parameter, and raises naming exactly the missing ones otherwise.", "quantifier": "every signature and args", "why_tests_cant": "All signatures.", "anchors": ["whatami/misc.py:required_args", "whatami/misc.py:ensure_has_positional_args", "whatami/misc.py:init_argspec"]}
{"id": "C45", "title": "Recorder postprocessor chain", "statement": "Each record add() stores is the result of passing the record the call describes through the recorder's postprocessors and then those given in the call, in order (only the latter when overriding); each gets the previous one's result, and all of them see the recorder as it was before the call.", "quantifier": "every recorder, every call, every chain of postprocessors that does not write to the recorder", "why_tests_cant": "All chains and batches.", "anchors": ["whatami/registry.py:Recorder.add", "whatami/registry.py:Recorder.add_postprocessors", "whatami/registry.py:Recorder.override_postprocessors"]}
{"id": "C46", "title": "Whatever was parsed can be written and parsed again", "statement": "If parse_whatid(s) returns a What w, for whatever text s, then w.id() works, parse_whatid accepts it, what it returns equals w and has the same id: w.id() is a normal form of s. (Exception: a What nested in w that is written set() or frozenset().)", "quantifier": "every text the parser accepts", "why_tests_cant": "All accepted texts: spacing, order, escapes, duplicates, unresolvable classes, any nesting.", "anchors": ["whatami/parsers.py:parse_whatid", "whatami/what.py:What.id", "whatami/whatutils.py:id2what"]}
{"id": "C47", "title": "Names, numbers and string bodies are read as the regular expressions say", "statement": "At every position of every text, the name, the number or the string body that parse_whatid reads is exactly what re.match finds there with the corresponding regular expression of the grammar (first alternative first, repetitions greedy with backtracking), and it reads none where re.match finds none.", "quantifier": "every text and position", "why_tests_cant": "All texts; the interplay of greedy repetition, optional parts and backtracking depends on what follows.", "anchors": ["whatami/parsers.py:build_whatami_parser", "whatami/parsers.py:build_oldwhatami_parser"]}
{"id": "C48", "title": "Reported attributes are the attributes of the object", "statement": "config_dict_for_object(obj) with its default sources holds, each once, exactly the slots, properties and __dict__ entries of obj under the values that obj.name has (so a property or slot hides a __dict__ entry of the same name, a subclass hides its bases, and inherited slots and properties count); with add_class also the remaining class attributes. With any other combination of sources the requested slots and properties have the values they read as, any other name has what the __dict__ has for it if that is requested, or else what the classes have if those are. It raises exactly if reading one of the requested slots or properties raises, and with that exception. whatareyou(obj) keeps the public ones of these.", "quantifier": "every object of every class hierarchy, every combination of sources", "why_tests_cant": "All hierarchies, all overridings and all combinations of slots, properties and dictionaries.", "anchors": ["whatami/misc.py:config_dict_for_object", "whatami/misc.py:_dict", "whatami/misc.py:_slotsdict", "whatami/misc.py:_propsdict", "whatami/misc.py:_classdict", "whatami/what.py:whatareyou"]}
{"id": "C49", "title": "whatid2columns adds exactly the requested columns", "statement": "whatid2columns(df, col, columns, prefix, postfix, inplace) adds, per requested key, a column named prefix+key+postfix (paths joined by _) holding in every row parse_whatid(id)[key], or None where the id has no such parameter; all other columns and the column order are kept; df itself changes only if inplace. It succeeds iff all ids parse and no lookup raises anything but KeyError; if one does, the frame is as before or, inplace, has the columns before the failing one; an unparseable id raises, a missing id column raises KeyError, and both leave df untouched. columns=None means every key of every id once, sorted by column name.", "quantifier": "all frames, id columns, key lists, prefixes and postfixes, iteration orders of the key set", "why_tests_cant": "a frame has arbitrarily many rows and ids and keys of any shape; tests check a handful of frames", "anchors": ["whatami/whatutils.py:whatid2columns", "whatami/whatutils.py:_get_or_none", "whatami/whatutils.py:_key2colname"]}
{"id": "C50", "title": "Indexing by a path", "statement": "what[(k1, ..., kn)] is exactly what is reached step by step: the parameter k1, then through nested Whats and whatable objects by parameter name, dicts by key, lists, tuples and strings by position (negative from the end); what[p + q] == what[p][q] when what[p] is a What; what[(k,)] is what[k]. Where a step cannot be taken it raises what that step raises (KeyError for a missing parameter or key, IndexError for a position out of range, AttributeError for a name asked of something that has no names), and a path with something unhashable raises TypeError before anything is read.", "quantifier": "all Whats, all paths of names and positions", "why_tests_cant": "values nest arbitrarily and mix Whats, whatables and collections; the index fallback through what() depends on which exception each step raises", "anchors": ["whatami/what.py:What.__getitem__"]}
{"id": "C51", "title": "Recorder settings over a history", "statement": "After any sequence of calls, the default of a column is what the last add_column_defaults/remove_column_defaults naming it left, and the postprocessor chain is the one of the last override (or the initial one) followed by everything added since, in order; add() calls, failing or not, change neither.", "quantifier": "all recorders and all histories of calls", "why_tests_cant": "a history can be of any length and interleave calls arbitrarily", "anchors": ["whatami/registry.py:Recorder.add_column_defaults", "whatami/registry.py:Recorder.remove_column_defaults", "whatami/registry.py:Recorder.add_record_postprocessors", "whatami/registry.py:Recorder.override_record_postprocessors"]}
{"id": "C52", "title": "The text of every value in an id", "statement": "With the default plugins the text of a value in an id is exactly the documented one: None, True, False, the decimal digits of an int, the repr of a float, a string between single quotes with every quote escaped once, <class 'x.y'> for classes, int() for numeric types, bracketed comma-separated texts of the elements for lists and tuples in their order and for sets, frozensets and dicts in ascending order of the texts, Cls(seq=...) for subclasses and (ordered) dicts, f(k=default) for functions and lambda(...) for lambdas, Cls(hash='...') for arrays, Cls(state=...) for random generators, str() of any other object (Cls() if that has an address), and the id for Whats and whatable objects. With any plugins, a collection shows exactly the texts of all its elements under those plugins, and an element without text raises TypeError instead of being left out.", "quantifier": "all values built from those kinds, at any depth; all plugin chains for the second part", "why_tests_cant": "The texts are defined by recursion over arbitrarily nested values and sorting of already built texts; tests see finitely many.", "anchors": ["whatami/plugins.py: what_plugin, string_plugin, tuple_plugin, list_plugin, dict_plugin, set_plugin, function_plugin, numpy_plugin, anyobject_plugin, WhatamiPluginManager.build_string", "whatami/what.py: What.id"]}
{"id": "C53", "title": "Freezing columns of a recorder", "statement": "Calling rec.add without ids, or rec.padd, any number of times and in any mix, changes nothing in the recorder and gives a function; calling that function with ids (by position or by name) does exactly what rec.add(ids, ...) does with all keyword arguments of the chain together, the last value given for a keyword winning, including what it returns or raises: a TypeError raised by a complete call is raised, not mistaken for missing arguments. Further positional arguments of the final call are the same as giving them by name; too many, or one given by position and by name, raise TypeError and change nothing.", "quantifier": "all recorders, all chains of add(...) and padd(...) calls with keyword arguments other than ids and self, all final calls", "why_tests_cant": "The chains have any length and mix two mechanisms (toolz.curry, functools.partial); curry decides by catching TypeError, so whether errors inside add are swallowed depends on every input.", "anchors": ["whatami/registry.py: _RecorderMeta, Recorder.add, Recorder.padd", "whatami/misc.py: decorate_some"]}
{"id": "C54", "title": "Decorated functions", "statement": "whatable(f), for a function f or a chain of functools.partial over a function that may itself be decorated any number of times, gives a callable that behaves like f when called and keeps its name; its what() reports the name of the underlying function and, for every parameter, exactly the value bound by defaults and partial applications. Decorating a function again does not change the report. It raises exactly if the arguments given do not fit (or set a defaulted parameter by position).", "quantifier": "every function signature, closure, number of decorations, chain of partials and arguments", "why_tests_cant": "decorations and partials nest without bound and closures may capture anything; tests show one of each", "anchors": ["whatami/what.py: whatable", "whatami/misc.py: callable2call, is_closure, extract_decorated_function_from_closure"]}
{"id": "C55", "title": "Decorated objects", "statement": "whatable(obj) and whatable on the class of obj or any of its bases change no attribute but what; whenever obj.what() is called later it reports exactly the public attributes the object has at that moment (not at decoration), without the method what itself. Decorating again replaces the options. It refuses, unchanged, objects without a __dict__ and objects with another attribute called what. A refusal raises Exception, unless looking for the attribute what itself raised something else.", "quantifier": "every object with inheritance, slots, properties and __dict__, every later state of it, all options", "why_tests_cant": "objects change after decoration and hierarchies are unbounded", "anchors": ["whatami/what.py: whatable, whatareyou, is_whatable", "whatami/misc.py: config_dict_for_object, trim_dict"]}
{"id": "C56", "title": "Ids of arrays", "statement": "Two numpy arrays without Python objects get the same text in an id exactly if they have the same class, element type, shape, strides and elements (up to collisions of the digest): where they lie in memory, what surrounds them there and whether they are views does not matter. In particular a slice and its contiguous copy, or a matrix in C and in Fortran order, get different ids although they are equal; and the state subclasses add (masks) does not enter.", "quantifier": "every shape, every stride (also negative or overlapping), every content of memory, every element size", "why_tests_cant": "shapes, strides and contents are unbounded; the order in which bytes are hashed depends on contiguity", "anchors": ["whatami/minijoblib/hashing.py: NumpyHasher.save, Hasher.hash", "whatami/plugins.py: numpy_plugin"]}
{"id": "C57", "title": "All subclasses", "statement": "all_subclasses(cls) returns exactly the classes below cls, never cls itself, with one entry for every inheritance path that leads to the class: hence duplicates exactly if some class can be reached in two ways (multiple inheritance with a common ancestor). It always terminates.", "quantifier": "every class hierarchy (any number of classes, any multiple inheritance) and every class in it", "why_tests_cant": "hierarchies are unbounded directed graphs", "anchors": ["whatami/misc.py: all_subclasses"]}
{"id": "C58", "title": "Monkey-patching what", "statement": "whatamize_object(cls, f) without force leaves everything unchanged if cls has or inherits a what; otherwise cls and all classes below it that had none get f, no class loses a what it defines, classes not below cls see no change; with force cls gets f. Import errors are skipped exactly if asked for. After whatamize_sklearn every class below one of the importable bases is whatable, and calling it again changes nothing.", "quantifier": "every class hierarchy with any method resolution order, every assignment of existing what attributes, every list of base classes", "why_tests_cant": "hierarchies and the order of patches are unbounded; interaction of patches with inherited attributes", "anchors": ["whatami/whatutils.py: whatamize_object", "whatami/wrappers/what_sklearn.py: whatamize_sklearn"]}
{"id": "C59", "title": "Ids of sklearn objects", "statement": "what() of a patched sklearn object has exactly the parameters get_params(deep=False) gives, named by the short name last declared for its class, and ids ignore exactly the parameters declared non-id for that class; objects of different declared classes never have the same id. Objects without get_params report their public attributes if their class was declared; otherwise what() raises AttributeError.", "quantifier": "every sequence of declarations, both tables in the code, all objects and parameter values, every plugin chain", "why_tests_cant": "declaration sequences and parameter values are unbounded", "anchors": ["whatami/wrappers/what_sklearn.py: _a, _ObjectParametersMeta, _what_for_sklearn, _declare0dot15dot1, _declare0dot19dot1"]}
{"id": "C60", "title": "Which sklearn declarations apply", "statement": "whatamize_sklearn applies the declarations of the oldest explicitly supported version that is not older than the installed one, or of the newest supported one if all are older, so exactly those of the installed version if it is supported; a warning is logged exactly if it is not. (The comment in the code claims the immediately older one is taken: false.)", "quantifier": "every version number, including pre-releases", "why_tests_cant": "versions are unbounded", "anchors": ["whatami/wrappers/what_sklearn.py: _declare_id_nonid_attributes"]}
{"id": "C61", "title": "Importing submodules", "statement": "import_submodules(package) returns exactly the importable modules in the package, each once under its full name: those directly in it and, with recurse_packages, those in importable packages in it at any depth. With ignore_errors it never raises ImportError; without, it returns only if the package and everything directly in it can be imported (errors further down are swallowed even then, because the recursive call does not pass its flags on).", "quantifier": "every tree of packages, every set of modules that fail to import, both flags", "why_tests_cant": "package trees are unbounded and any subset of imports may fail", "anchors": ["whatami/misc.py: import_submodules"]}
{"id": "C62", "title": "Decorating metaclass", "statement": "Every class created with the metaclass decorate_some(...) returns has exactly the attributes of its body, those with decorators wrapped by all of them in the given order, the others untouched; this holds for every class of a hierarchy independently of the others, so overrides are decorated and inherited attributes are not decorated twice. Creation fails exactly if a decorator raises on an attribute of the body.", "quantifier": "every assignment of decorators to names, every sequence of class definitions", "why_tests_cant": "hierarchies and decorator chains are unbounded", "anchors": ["whatami/misc.py: decorate_some"]}
{"id": "C63", "title": "What a text of an id means", "statement": "parse_whatid(text) returns a What iff the text spells well-formed id syntax (with any whitespace between tokens), and then it is the What that the syntax means: name and out_name as written; each parameter with the value its literal denotes; a parameter or dict key given again keeps its first position and takes its last value, equal keys being Python-equal (1, True and 1.0); of equal set elements the first stays; frozensets become sets; a class that cannot be imported becomes {'class': name}; unhashable keys and an out_name without parameters are errors. Texts that spell no well-formed syntax, and only those, fail to match, and no text spells two syntaxes.", "quantifier": "every text, every syntax of any depth, every spacing, every environment of importable classes", "why_tests_cant": "texts, nesting and whitespace are unbounded; acceptance must be exact in both directions", "anchors": ["whatami/parsers.py: parse_whatid", "whatami/parsers.py: WhatamiTreeVisitor", "whatami/parsers.py: build_whatami_parser"]}
{"id": "C64", "title": "Decorated classes over any history", "statement": "whatable on a class accepts exactly classes without an attribute what (own or inherited), classes that is_whatable accepts, and, with force_flag_as_whatami, classes whose what is a plain method; built-in types are refused. An accepted class is whatable afterwards and stays so whatever is decorated later; decoration gives it whatfunc or a brand new function and changes no other class's own attributes, so classes that have no decorated class above them are unaffected. force_flag_as_whatami changes no attribute: it marks the method, so that exactly the classes sharing that method become whatable too. A refused class changes nothing, but for a whatfunc marked before a built-in type was refused. A refusal raises Exception; AttributeError if the class was to be flagged and its what takes no attributes.", "quantifier": "every class hierarchy, every sequence of whatable calls with any options", "why_tests_cant": "histories and hierarchies are unbounded and methods are shared objects", "anchors": ["whatami/what.py: whatable, is_whatable"]}
{"id": "C65", "title": "The hash of values depends on their contents only and tells them apart", "statement": "minijoblib's hash of a value made of None, booleans, numbers, strings, tuples, lists, dicts, sets, frozensets, classes and functions, objects with attributes, builtin and bound methods, types of elements and numpy arrays, nested in any way, is the same whatever the order in which dicts, sets and attributes were filled, whatever the identities of the objects and wherever in memory the elements of arrays are, as long as no object occurs twice and keys and elements can be sorted (or are of kinds that cannot be compared with each other). Where everything can be sorted, and nothing is made to look like what the hasher puts in place of arrays, sets and methods, what is hashed determines the value: types and contents at every place, and of arrays the class, type, shape, strides and elements. Known limits: an object that occurs twice, frozensets and sets of partially ordered elements hash by identity or order; a dict with keys that cannot be compared hashes like the dict keyed by the hashes of its keys; an array may change places with the tuple that stands for it, and is hashed like it if it has no data.", "quantifier": "all such values of any nesting and size, all orders of iteration of dicts and sets, all identities, all memory layouts, all comparisons that depend on values, all hash functions and encodings of pickles", "why_tests_cant": "The hash must agree for all orders of iteration and differ for all different values; tests sample a few of each, and collisions come from rare combinations (ids, unsortable keys) no sample hits.", "anchors": ["whatami/minijoblib/hashing.py:Hasher", "whatami/minijoblib/hashing.py:NumpyHasher.save", "whatami/minijoblib/hashing.py:_ConsistentSet", "whatami/minijoblib/hashing.py:_MyHash", "whatami/minijoblib/hashing.py:hasher"]}
{"id": "C66", "title": "Missing optional libraries raise, they never change an id", "statement": "Whatever optional libraries (numpy, pandas) are missing, whichever plugins are registered and in whatever order, the id of a configuration is the one it has with everything installed, or else ImportError is raised. With the default plugins and no pandas, the id raises exactly if the configuration shows (in its id) a None, a boolean, a number, a class or an object without a What, or something refused anyway. Dropping pandas_plugin (numpy present), or dropping the three plugins of the libraries (none present), restores all ids of configurations without such objects. has_numpy() and has_pandas() never return False: without the library the first raises ImportError, the second returns True.", "quantifier": "all installations, all lists of plugins, all values and configurations of any depth, with or without non-id parameters", "why_tests_cant": "A test run has one installation; which values reach the plugin of a missing library depends on the order of the chain and on every nested value.", "anchors": ["whatami/plugins.py: numpy_plugin, rng_plugin, pandas_plugin, has_numpy, has_pandas, WhatamiPluginManager.DEFAULT_PLUGINS", "whatami/misc.py: _LazyImportError, maybe_import", "setup.py: extras_require"]}
{"id": "C67", "title": "Equality of configurations", "statement": "== between Whats is symmetric and transitive, and reflexive on Whats of data without nan: two Whats are equal exactly if they have the same name and out_name and the same parameters with equal values, in whatever order and whichever of them are non-id; sets (frozen or not) inside are equal exactly if each element of either has an equal one in the other, dicts if each item has an equal one. Equal Whats need not have the same id (1 and True, set and frozenset).", "quantifier": "all Whats of data of any nesting: None, booleans, numbers, strings, classes, tuples, lists, sets, dicts, Whats; every meaning of the float texts", "why_tests_cant": "Symmetry and transitivity range over pairs and triples of nested values; equality of sets and dicts searches one in the other.", "anchors": ["whatami/what.py: What.__eq__"]}
{"id": "C68", "title": "Recorder.to_df shows every record, in insertion order", "statement": "Whatever order pandas gives the rows and columns of from_dict, to_df() has one row per record in the order the records were added, one column for each name some record has, and in each cell exactly the value of that record for that column, or NaN if it has none. It raises exactly if some record has no columns at all. Over any history of calls the rows already shown stay first, in their order, with their cells.", "quantifier": "all recorders reachable by any history of calls, all records, all orders in which pandas returns rows and columns", "why_tests_cant": "pandas' ordering differs between versions, and the set of columns depends on all records together; tests fix one version and a few records.", "anchors": ["whatami/registry.py: Recorder.to_df, Recorder.add"]}
{"id": "C69", "title": "Records of experiments name their setups by id", "statement": "mlexp_info_helper returns an ordered dict with exactly the nine documented keys in order; data_setup, model_setup and eval_setup are None for None, the string for a string and the id of a What or whatable; the rest is as given. With setups that have ids it can fail only in reading the source of exp_function or in itime(). Giving the recorded ids instead of the setups yields the same record.", "quantifier": "all setups (None, strings, Whats, whatables), all titles, comments, clocks and sources", "why_tests_cant": "The three setups range over all configurations; that ids can stand for setups is a statement about every configuration.", "anchors": ["whatami/misc.py: mlexp_info_helper", "whatami/whatutils.py: what2id"]}
{"id": "C70", "title": "Fully qualified names", "statement": "fqn(obj) is the module, a dot and the qualified name (the plain name if there is no qualified one); with use_class that of the class; it raises AttributeError or TypeError exactly if one of these is missing or None. maybe_import_member(fqn(x)) is x for every top-level x found in its module; for a nested class it raises ImportError (or gives None). Different top-level objects have different names.", "quantifier": "all objects by their name attributes, all modules, all import behaviours", "why_tests_cant": "Ranges over every combination of attributes and every module system; collisions depend on pairs of names.", "anchors": ["whatami/misc.py: fqn, maybe_import_member"]}
{"id": "C71", "title": "sklearn_parameters_report lists exactly the missing classes", "statement": "The report's 'unwhatamized' lists, in ascending order and each once, exactly the fully qualified names of the classes that inherit at any distance from an importable base of the library and whose name is not that of a declared class, however many inheritance paths there are; it can always be made if classes have names and bases are missing only by ImportError.", "quantifier": "all class hierarchies, all declared sets, all import behaviours of the bases", "why_tests_cant": "Class hierarchies are unbounded graphs with diamonds; a test sees the one of one sklearn version.", "anchors": ["whatami/wrappers/what_sklearn.py: sklearn_parameters_report", "whatami/misc.py: all_subclasses, fqn, maybe_import_member"]}
{"id": "C72", "title": "A recorder of configurations never holds the same configuration twice", "statement": "With Recorder(id_extractor=what2id), adding records for a batch of configurations succeeds exactly if no two of them are the same but for what ids do not show (C90; the order of parameters, sets and dicts, for configurations whose ids read back) and none is the same as one recorded before; the recorder then holds the old records followed by the new ones in order, and otherwise it is unchanged. Over any sequence of additions it never holds two records of the same configuration and never loses one.", "quantifier": "all configurations of data, of values nested without bound, and of functions, partials, arrays, objects and the like, which count by what stands for them; all recorders of such, all sequences of batches", "why_tests_cant": "The statement joins the codec of ids with the recorder: it needs that ids are injective for all configurations and the bookkeeping right for all histories.", "anchors": ["whatami/registry.py: Recorder.add", "whatami/whatutils.py: what2id", "whatami/what.py: What.id"]}
{"id": "C73", "title": "repr of a What tells everything", "statement": "Two Whats with the same repr have the same name, the same configuration (same values in the same order), the same non-identifying parameters and the same output name; and repr is a Python expression that stands for the What, with every string escaped so that it reads back as itself.", "quantifier": "all Whats of None, booleans, numbers, strings of any characters, classes, and tuples, lists, sets, frozensets, dicts and Whats nested without bound (no classes for the second part)", "why_tests_cant": "Escapes and delimiters have to work for all strings and nestings; tests compare a few reprs.", "anchors": ["whatami/what.py: What.__repr__"]}
{"id": "C74", "title": "Equal Whats answer alike", "statement": "Whats that are equal (`==`) cannot be told apart by asking them: for every item, simple or nested path, `w[item]` of the one and of the other are equal or raise the same exception; `get` gives equal values, or both give the default, or both raise the same; `flatten` gives the same keys in the same order with equal values (parameters that do not go to the id, which == ignores, must be asked for or absent; collections not entered). This holds although the two may list their parameters in different orders, write their numbers differently (1, True, 1.0) and declare different non-id keys.", "quantifier": "All pairs of Whats of data (no set, dict or configuration with two equal members) that are equal, all items and paths, all defaults, flattening with or without recursion", "why_tests_cant": "Equality is defined recursively through sets, dicts and Whats in any order; lookups mix names, indices, keys of dicts and nested Whats: only a proof covers all pairs of them", "anchors": ["whatami/what.py: What.__eq__, What.__getitem__, What.get, What.flatten"]}
{"id": "C75", "title": "Working from ids is working from the Whats", "statement": "Take any Whats of the fragment whose ids can be read back (C06: no nan, nothing left out of the id) and their ids. sort_whatids on the ids and sort_whats on the Whats, by the same keys, raise the same exception or give the same order with equal values. match_whatids on the ids, with the id of a template What, selects exactly the ids of the Whats that match the template. whatid2columns on a column with the ids succeeds exactly if every key has a column name and what.get(key) raises for none of the Whats, and then every cell of a requested column is equal to what.get(key) of the What of that row.", "quantifier": "All lists of Whats of the fragment, all keys (names and paths), templates, ignored keys, data frames, prefixes and postfixes", "why_tests_cant": "The id is written by one component, read by another and looked into by a third: the answers agree for every configuration only if all three fit together", "anchors": ["whatami/whatutils.py: sort_whats, sort_whatids, match_whatids, whatid2columns, whatvalues", "whatami/what.py: What.id, What.get, What.flatten", "whatami/parsers.py: parse_whatid"]}
{"id": "C76", "title": "whatamize_sklearn, whole and interrupted", "statement": "A call of whatamize_sklearn() that returns leaves the registry with the last declaration of each class made for the version to go by (C60), over what was there; every class below BaseEstimator or another importable base has a what, the sklearn one if it had none, classes that define their own keep it and unrelated classes see no change; what() of an instance has its parameters, the declared short name (or class name) and the declared non-ids. It raises exactly if an import among the declarations fails or a base cannot be resolved for another reason than an ImportError; if an import fails no class is touched and the registry has the declarations before it. Whatever calls came before, interrupted or not, a call that returns leaves the same registry and the same whats as if it had been the first; a second call changes nothing. With check=True the same is left behind and the check passes exactly if every concrete class below BaseEstimator cannot be called without arguments or makes an object whose what() is a What; it never fails for want of a what. what() of a RepeatedKFold raises AttributeError afterwards.", "quantifier": "Every installed version, every pattern of failing imports, every class hierarchy and method resolution order, every history of earlier (interrupted) calls, every earlier state of the registry and of the classes", "why_tests_cant": "The call can be interrupted at any of dozens of imports, and repeated; hierarchies, versions and histories are unbounded", "anchors": ["whatami/wrappers/what_sklearn.py: whatamize_sklearn, _declare_id_nonid_attributes, _declare0dot15dot1, _declare0dot19dot1, _check_all_monkeypatched, _what_for_sklearn", "whatami/whatutils.py: whatamize_object"]}
{"id": "C77", "title": "Reading back ids of functions, partials, arrays and objects", "statement": "In an id, every value that is not data is shown as a What that stands for it: a function or partial application by its name and what its parameters are bound to, an array by its class and digest, an instance of a list, tuple, set or dict subclass by its class and elements, a random generator by its state, an object made whatable by its class and public attributes, int, float and complex by their name, any other object by its class if its str() has its address and else by the value its str() looks like (numpy.int64(3) is 3). A configuration with such values anywhere has the id of the configuration with the stand-ins put in their place; if that is readable, parsing the id gives a What equal to it, which (without frozensets) has the same id again; and two configurations have the same id exactly if those with the stand-ins are the same up to the order of dicts, sets and parameters.", "quantifier": "Every configuration with any number of such values at any nesting depth, in collections, defaults, bound arguments, attributes and generator states", "why_tests_cant": "Values nest without bound and every kind can contain every other; whether two different kinds of values can be confused is a question about all pairs of configurations", "anchors": ["whatami/plugins.py: DEFAULT_PLUGINS", "whatami/what.py: What.id, whatable", "whatami/parsers.py: parse_whatid", "whatami/misc.py: callable2call"]}
{"id": "C78", "title": "obj2what, FunctionLike and call2what", "statement": "obj2what(x) of an object with FunctionLike mixed in gives the name of its class and all its own attributes (slots, properties and __dict__, over the whole hierarchy) without an underscore in front or at the end; of an object whatable decorated, what its what() says, with the options of the decoration; name_override and the options given to obj2what do not count in either case. Of any other object, or with force_inspect, it gives the name given or else the class, and the own attributes that are public for the options given, and raises exactly if a slot or property cannot be read; a callable object is then only its __name__ (AttributeError if it has none), whatever its attributes. Of a function it gives the name and the defaults that the options do not exclude. call2what(depth) gives the name and locals of the function at that depth of the stack, 1 being the caller and -1 the outermost, and raises IndexError exactly if there is none.", "quantifier": "Every class hierarchy, set of attributes, options, function signature, call stack and depth", "why_tests_cant": "Hierarchies, attributes, option combinations and stacks are unbounded; tests show one object of each kind", "anchors": ["whatami/whatutils.py: obj2what, FunctionLike, call2what", "whatami/what.py: whatareyou, is_whatable", "whatami/misc.py: callable2call, config_dict_for_object"]}
{"id": "C79", "title": "How much work it is to read a text as an id", "statement": "Reading a text that loads, in particular the id of a configuration, takes work linear in its length, however deeply it is nested: at most 192 attempts to match a terminal per character. For any text, whether it loads or not, only opening braces can cost more than that, because what follows one is read first as a set and then as a dict: each at most doubles the work. That bound is of the right order: a text with n open braces, a(b={{{..., is rejected only after at least 2^n attempts.", "quantifier": "Every text and every environment to load it in; every configuration (for ids); every number n of braces", "why_tests_cant": "Cost is a statement about all lengths and nestings; tests time a few short texts, and a test that met the exponential case would not end", "anchors": ["whatami/parsers.py: build_whatami_parser, parse_whatid, a_set, a_non_empty_set, a_dict, value", "whatami/what.py: What.id"]}
{"id": "C80", "title": "A registry of nicknames never confuses configurations", "statement": "With WhatamiRegistry as a book of nicknames for configurations: register(w, n) succeeds exactly if n stands for no configuration other than w (but for what ids do not show, C90) and w has no other nickname, and then enters exactly that pair; remove by nickname or by an equal configuration strikes out exactly that entry, or raises KeyError and changes nothing if there is none. After any history of calls, failing ones included, the registry holds exactly the book that results; parse_whatid(nick2id(n)) equals the configuration registered as n; nick_or_id(w) is the nickname of w if it has one, else its id, and tells configurations apart unless some nickname is itself the id of another configuration.", "quantifier": "Every history of register, remove and reset calls on configurations of any values that show in ids; every nickname", "why_tests_cant": "A statement about all histories and all pairs of configurations; it needs that ids never collide (C08), which no test can establish", "anchors": ["whatami/registry.py: WhatamiRegistry.register, remove, nick2id, id2nick, nick_or_id, reset", "whatami/whatutils.py: what2id"]}
{"id": "C81", "title": "What recorders share", "statement": "A method call on a recorder does to it what the documentation says whatever else is going on, and nothing shows in a recorder but: its own method calls; add_record_postprocessors of another recorder that was made with the same non-empty list of postprocessors; in-place changes of that list; and in-place changes of its records by whoever got them from add or get, which change exactly that record. A record dict is never in two recorders or under two ids; the list record_postprocessors() returns is nobody's; after override_record_postprocessors a recorder shares its postprocessors with nobody, for ever.", "quantifier": "Every history of operations on any number of recorders, lists of postprocessors and records, by any clients", "why_tests_cant": "Aliasing is a property of histories: a test sees only the sharing it thought of", "anchors": ["whatami/registry.py: Recorder.__init__, add, get, add_record_postprocessors, override_record_postprocessors, record_postprocessors"]}
{"id": "C82", "title": "User plugins that call back build_string", "statement": "A user plugin may call build_string on any values, decide by what that returns or raises, and so on. build_string(v) is still what the first plugin that does not decline v does, each user plugin doing what it comes to in its conversation with build_string; a limit on nested calls of build_string never changes a result, it only turns it into RecursionError (for what limiting all calls does to whatable objects see C92). If the user plugins call back on smaller values only, no more calls of build_string are nested than the value is deep, and RecursionError is not raised; plugins that call back in circles raise it under every limit. A plugin that declines everything is invisible, as is everything behind the one that captures all; a plugin that answers for values of its own only (declining the built-in data types) changes no id of a configuration in which none of these occurs.", "quantifier": "Every chain of plugins, every user plugin as a function of the values and of what build_string answers, every value, every recursion limit", "why_tests_cant": "User plugins are arbitrary code interleaved with the recursion of build_string: a test sees one plugin and some values", "anchors": ["whatami/plugins.py: WhatamiPluginManager.build_string, insert", "whatami/plugins.py: dict_plugin, list_plugin, tuple_plugin, set_plugin"]}
{"id": "C83", "title": "Classes and objects decorated in any order", "statement": "whatable(obj, whatfunc, force_flag_as_whatami) accepts exactly objects that can be given an attribute and have no what or are whatable, and, with force, those whose what is a function in their own __dict__ (for methods force raises AttributeError). It binds whatfunc, or a new function, to that object; the object is whatable afterwards iff that function gives a What for it. No other object or class gets another what, but the function is marked, so classes that use it as their method count as whatable. A refused call changes nothing, but for the mark on the function if the object takes no attributes. Over any history an object keeps its what unless it or a class above it is decorated; its own what survives the decoration of its class; a whatable object stays whatable as long as the functions used give Whats for it; one that was given a function that does not is refused for ever. Decorating a class shows only in objects of classes below it.", "quantifier": "Every session: any classes, multiple inheritance, objects with or without __dict__, any calls of whatable in any order with any functions", "why_tests_cant": "Marks on shared functions, inheritance and instance attributes interact over histories", "anchors": ["whatami/what.py: whatable, is_whatable"]}
{"id": "C84", "title": "What whatareyou says of values of the built-in types", "statement": "whatareyou never fails on None, booleans, numbers, strings, lists, tuples, sets, frozensets, dicts, instances of their subclasses and Whats. The What has the name of the type (or name_override), and exactly these parameters, each once and only if its name is public: for integers and booleans denominator, imag, numerator and real, for floats imag and real (if properties are asked for); for list, tuple, set and dict, and for instances of subclasses of list, tuple and dict, seq, a plain copy of the contents; for instances of subclasses the entries of __dict__ (if asked for), where seq hides an entry of that name; for Whats their four slots. Classes and built-in functions give their name and no parameters; a functools.partial whose arguments do not fit gives func, args and keywords. The id of a collection without attributes is type(seq=text of the contents), so two collections with one id have types of one name and contents of one text. Strings, frozensets and sets of a subclass have no contents to tell: all strings have one id.", "quantifier": "Every value of these types, of any size and nesting, any attributes, any options but add_class and another prefix, any name_override", "why_tests_cant": "Unbounded values, option combinations and attribute names that clash with seq", "anchors": ["whatami/what.py: whatareyou", "whatami/misc.py: config_dict_for_object, trim_dict, callable2call"]}
{"id": "C85", "title": "Functions and partials decorated with a whatfunc", "statement": "whatable(f, whatfunc=w) accepts every function and functools.partial, also partials whose arguments do not fit, which whatable(f) refuses. what() of the function that comes back is w(that function) - the new one, not f, unless modify_func_inplace. Over any history of decorations, with or without whatfunc, in place or not, the last one decides what what() does, calls always run what f runs with the same arguments, a function keeps its name, and the result counts as whatable. It counts as whatable even if w raises or gives no What. With whatfunc=whatareyou the What has the name of f and its public parameters with defaults if f was changed in place, and no parameters otherwise; decorating that again without whatfunc reports the parameters.", "quantifier": "Every function, closure and chain of partials, every user function w, every history of decorations", "why_tests_cant": "Histories of decorations and arbitrary whatfuncs cannot be enumerated", "anchors": ["whatami/what.py: whatable, is_whatable, whatareyou", "whatami/misc.py: callable2call, extract_decorated_function_from_closure"]}
{"id": "C86", "title": "Extractors and postprocessors that keep state and use the recorder", "statement": "Whatever id extractors and postprocessors do - keep state, read the recorder, change its settings, call its add - over any history the records that are in a Recorder are never changed, removed or reordered and ids stay unique; the records an add returns have different ids, were not in it when the call began and are when it ends. If they do not write to the recorder, an add that fails leaves it as it was and one that succeeds appends what it returns and changes nothing else. Each postprocessor is called exactly once for each place in the chain and each record added, in order; if the call fails, the calls made are the first ones for ids that are all different and new. Only records added while an add runs are not safe: a record that a nested add returned may be replaced by the outer call, and what nested calls added stays when the outer one fails.", "quantifier": "Every stateful program used as extractor or postprocessor, every nesting of add, every history", "why_tests_cant": "User code called back at any point, with state and re-entrancy, cannot be enumerated", "anchors": ["whatami/registry.py: Recorder.add, Recorder.add_column_defaults, Recorder.remove_column_defaults, Recorder.add_record_postprocessors, Recorder.override_record_postprocessors"]}
{"id": "C87", "title": "Users' plugins keep ids canonical if each of them does", "statement": "Insert any users' plugins, which may call build_string back, anywhere in the chain. If each of them, given a build_string that does not mind a kind of difference, does not mind it itself, then the whole does not: ids (and what build_string gives for any value) stay the same under reordering of dicts, sets and parameters, changes to non-id parameters, changes to private attributes of whatable objects and escaping of quotes, at any nesting depth and for any selection of these kinds, whatever the recursion limit is; where one of them raises, both do. For plugins that do not call back the condition is that their answers do not depend on the difference, and it cannot be dropped.", "quantifier": "All chains made of whatami's plugins in their order (with or without anyobject0x_plugin) and any number of users' plugins, all values and configurations, all recursion limits", "why_tests_cant": "Plugins call each other through build_string in an unbounded mutual recursion, and every inserted plugin is called for values of every kind at every depth", "anchors": ["whatami/plugins.py: WhatamiPluginManager.build_string, insert", "whatami/what.py: What.id"]}
{"id": "C88", "title": "anyobject0x_plugin(deep=True) tells objects by their attributes", "statement": "Put anyobject0x_plugin with deep=True in the place of the default one in the chain. Then the text of any value is that of the value in which every object whose str() has an address (and which no other plugin takes), anywhere within and at any depth, is replaced by a What of its class with all its attributes (private ones too) as parameters; ids can be read back to that. Values without such objects get the text they get from the default plugins. So where the default gives all objects of a class one text, this gives two objects the same text exactly if class and attributes are the same up to order. It raises where some attribute has no text, although the default does not. Calls nest no deeper than the value, so there is no RecursionError below that limit.", "quantifier": "All values and configurations (trees), all nesting depths of objects within objects and collections, all recursion limits", "why_tests_cant": "Objects can be nested without bound in attributes, collections and configurations, and the plugin recurses through the whole chain for each attribute", "anchors": ["whatami/plugins.py: anyobject0x_plugin", "whatami/what.py: What.id", "whatami/utils.py: config_dict_for_object"]}
{"id": "C89", "title": "Refused calls raise the exception they are documented to, for these reasons only", "statement": "register raises ValueError if what or nickname is None, what what2id raises, and Exception exactly if the nickname goes with another id or the id with another nickname. Recorder.add, once the ids are told, raises Exception only for an id that is there, an id given twice, or the id column given as a column; TypeError only where a value would go to an id that is a number or is called default or self; KeyError only for a What as a column; and else only what a postprocessor raises; known and repeated ids and such columns are always refused. unique raises TypeError exactly for a column with an unhashable value. call_dict raises KeyError exactly if a parameter (or *args, unless ignored) was deleted in the caller, ValueError exactly if there are varargs. maybe_import_member raises ValueError exactly for names without a module. whatable on objects raises AttributeError or Exception. whatid2columns raises TypeError for cells that are no strings.", "quantifier": "All registries, recorders, postprocessors, calls, frames, importers, sessions of classes and objects, frames of ids", "why_tests_cant": "Which check fires first depends on all ids, columns and postprocessors of a call and on everything recorded before; a suite can only try a few combinations", "anchors": ["whatami/registry.py: WhatamiRegistry.register, Recorder.add, Recorder.unique", "whatami/misc.py: call_dict, maybe_import_member", "whatami/what.py: whatable", "whatami/whatutils.py: whatid2columns"]}
{"id": "C90", "title": "Exactly which configurations share an id, whatever their strings and names", "statement": "Two configurations made of None, booleans, numbers, classes, strings of any characters, tuples, lists, sets, frozensets, dicts and Whats with any identifiers for names have the same id if and only if they are the same at every depth but for the order of dicts, sets and parameters, which single quotes of strings are escaped already, non-id parameters, and empty sets and frozensets against Whats called set and frozenset that show no parameters. This holds also where the id cannot be parsed back. In particular configurations with the same id have the same name, out_name and visible parameters, and strings with the same id differ in escaped quotes only. With functions, partials, arrays or objects inside, the same holds of what stands for them, and on the configurations whose ids read back (C08) only the order does not show. Full ids (str(what), id(nonids_too=True)) likewise, where the non-id parameters of the configuration itself (not those of nested ones) do show.", "quantifier": "All pairs of configurations; any strings, any names, any depth", "why_tests_cant": "Absence of collisions is about all pairs; strings with unbalanced quotes and backslashes make ids whose literals only the whole text delimits", "anchors": ["whatami/what.py: What.id", "whatami/plugins.py: string_plugin, dict_plugin, set_plugin, tuple_plugin, list_plugin"]}
{"id": "C91", "title": "What the id of any configuration is read as, and when nothing is lost", "statement": "For every configuration (None, booleans, numbers, strings, classes, collections and Whats, nested in any way) the id can be parsed if and only if the configuration is legible (C13) and there is something it is read as, and that is the only result; it is described without reference to the parser: strings come back with their quotes escaped and without the whitespace at the beginning, frozensets as sets, a nested What without visible parameters called set or frozenset as the empty set, a class as what its dotted name imports (or as a dict naming it), parameters that do not show are gone, and set elements and dict items are added in the order of their texts, those that have become equal being one (the first place, the last value). The configuration comes back as it was, up to the order of dicts, sets and parameters, if and only if it is legible and none of these losses occurs anywhere in it; and in what was read there is nothing more to lose.", "quantifier": "every configuration of supported values whose Whats have different parameter names, every environment in which classes are imported as themselves", "why_tests_cant": "tests round-trip a few configurations; the silent losses depend on every string, nesting and order, and 'only these losses' quantifies over all configurations", "anchors": ["whatami/parsers.py: parse_whatid, build_whatami_parser, WhatamiTreeVisitor", "whatami/plugins.py: string_plugin, dict_plugin, set_plugin, tuple_plugin, list_plugin", "whatami/what.py: What.id, What.to_dict"]}
{"id": "C92", "title": "A short stack raises, or silently changes the ids of whatable objects", "statement": "Counting Python frames. With a stack long enough for the value (a bound proportional to its depth suffices) build_string returns or raises what it does without any limit. With a shorter one, a value without whatable objects inside can only make build_string raise RecursionError: the text is never changed; the same holds of any value for a chain without the plugin for whatable objects. Whatable objects are the exception, because is_whatable calls what() under `except Exception` and so takes a RecursionError for 'not whatable': if what() needs at least as many frames as getting to the next level and answering there (in CPython it does), an object made of whatable objects and plain data never makes build_string raise RecursionError, however deep it is; instead, of j whatable objects inside one another only as many are shown as fit ((n + step - q)/step of them for n frames left), followed by c() as if the next one were empty, whatever is further inside. So objects that differ get the same id without any error, and the id of one object depends on how deep in the program it is asked for.", "quantifier": "all values, chains of plugins (user plugins that do not call back), numbers of frames left, and numbers of frames that the pieces of code need (arbitrary functions of plugin and value)", "why_tests_cant": "the result depends on the depth of the stack at the call, on the nesting depth of the object and on the interpreter's frame counts: a test runs at one depth", "anchors": ["whatami/what.py:is_whatable", "whatami/what.py:What.id", "whatami/plugins.py:whatable_plugin", "whatami/plugins.py:anyobject0x_plugin", "whatami/plugins.py:WhatamiPluginManager.build_string"]}
{"id": "C93", "title": "Describing an object runs its repr() and properties, and loses it if they raise", "statement": "To say that a value is not callable, callable2call formats it with %r; whatareyou calls it on everything, and then reads slots and properties. So whatareyou(v), and with it what() of every whatable object that is not callable, runs repr(v): the text does not matter, no id depends on it, and neither do a ValueError or TypeError it raises; any other exception of repr(), and any exception of a property (or a slot never assigned) asked for, is an exception of whatareyou. what() raises for no other reason. is_whatable takes it for 'not whatable': inside a configuration such an object loses all its parameters, what is left is its class or its str(). An OrderedDict whose repr() raises has no text at all, though a plain dict of the same items has one. A whatable object cannot have `def __repr__(self): return self.what().id()`: both repr() and what() run into every recursion limit. If nothing inside raises, ids are as the other claims say.", "quantifier": "all values, chains of plugins, and ways to print values (repr, str and the reading of attributes arbitrary partial functions, raising anything)", "why_tests_cant": "repr() is arbitrary user code run by a line that only makes an error message; tests use objects with the default repr", "anchors": ["whatami/misc.py:callable2call", "whatami/what.py:whatareyou", "whatami/what.py:is_whatable", "whatami/plugins.py:dict_plugin", "whatami/plugins.py:anyobject0x_plugin", "whatami/misc.py:config_dict_for_object"]}
{"id": "C94", "title": "Which configurations have the same positional id", "statement": "what.positional_id(non_ids_too=f) has the name, the out_name and the values of the parameters: first those of the configuration by the order of their names, each one followed by the parameters it has itself if it is a What, and so on. Two configurations have the same positional id exactly when they have the same name, the same out_name, and lists of values of the same length whose values differ only in what ids do not show (C90). So the names of the top parameters do not show, but for their order: other names in the same order give the same positional id. For configurations of data and Whats the same id implies the same positional id; not for objects whose what() gives a What, which have the same text as the What but whose parameters are not listed.", "quantifier": "all configurations whose parameters at any depth are data or have something that stands for them, any strings; with and without non-id parameters", "why_tests_cant": "uniqueness over all pairs of configurations: the list has no names, and each nested What is written and then listed again", "anchors": ["whatami/what.py:What.positional_id", "whatami/what.py:What.flatten"]}
{"id": "C95", "title": "A registry used by several threads, and calls that are interrupted", "statement": "register, remove and reset of one WhatamiRegistry, run by any number of threads with their steps in any order, any of them interrupted at any step. Calls about different nicknames and ids (those given and those that belong to them) do not disturb each other: each returns or raises and leaves what it would have by itself, nothing else changes, and when all have ended nicknames and ids are inverse of each other. In all cases, also with reset, every pair that the registry has either way was there at first or was registered by one of the calls. A call that is interrupted has changed nothing, all it would have changed, or one of the two directions only: register and remove may leave a nickname at an id only. Then remove raises, by nickname, what or both, and changes nothing; the nickname may be registered for a second id; and of the calls that run whole only reset, or registering again a pair that was left, can make the registry one-to-one again. Two threads that register one nickname for two ids may both return normally, after which both ids have it; a registration that returns after a reset has returned may be gone.", "quantifier": "all registries, all calls in all threads, all schedules, all points of interruption; all later calls", "why_tests_cant": "ranges over all interleavings of steps and all crash points; the races need particular schedules", "anchors": ["whatami/registry.py:WhatamiRegistry.register", "whatami/registry.py:WhatamiRegistry.remove", "whatami/registry.py:WhatamiRegistry.reset"]}
{"id": "C96", "title": "A recorder that several threads add to, and adds that are interrupted", "statement": "Any number of threads call add on one Recorder, with their steps in any order and any of them interrupted at any step; postprocessors may look at the recorder at any of their steps. Records that there were at first are kept, unchanged and in front; ids stay unique; every other record was returned by a call that has ended, so an interrupted call adds nothing; a call that returned has returned one record for each of its ids, which are different and were not there at first, and each is in the recorder unless another call adds the same id. From any moment on ids are never removed or reordered, and a record is never replaced unless a call that has not ended at that moment adds its id. Calls that add different ids with postprocessors that do not look at the recorder return or raise what they would alone, and the recorder then has what there was followed by what those that returned would have added one after another, in some order. But two calls that add the same id may both return normally: the record that the first returned is then gone.", "quantifier": "all recorders, all calls of add in all threads, all schedules, all points of interruption; all postprocessors that read", "why_tests_cant": "ranges over all interleavings of steps and all crash points", "anchors": ["whatami/registry.py:Recorder.add"]}
{"id": "C97", "title": "The plugin list when several threads change it, and calls that are interrupted", "statement": "Any number of threads insert, drop and reset plugins, with their steps in any order and any of them interrupted at any step. A call alone does what C16 says, and an interrupted one has changed nothing or everything. However the steps fall, plugins that no call inserts are in the order in which they were (or, when a call resets, in the order of the default list), and none is made up. If every inserted plugin is new and is inserted by one call only, no plugin is ever in the list twice. But two threads that insert the same plugin may both return normally and leave it in the list twice (a drop then removes one of them only), and an insertion or a removal that returned normally may be undone by another thread's insertion.", "quantifier": "all plugin lists, all calls in all threads, all schedules, all points of interruption", "why_tests_cant": "ranges over all interleavings of steps and all crash points", "anchors": ["whatami/plugins.py:WhatamiPluginManager.insert", "whatami/plugins.py:WhatamiPluginManager.drop", "whatami/plugins.py:WhatamiPluginManager.reset"]}
{"id": "C98", "title": "Configurations whose keys are not strings", "statement": "Keys of a configuration need not be strings. Whatever stable sort `sorted` is: with string keys id() is as in the other claims. If all keys are strings, all are integers or booleans, or None is the only one, and Python finds no two of them equal, id() and keys() do not depend on the order in which they were given. If there are keys of two of these kinds, id() raises TypeError, in whichever order they were given, even if all keys of one kind are non-id keys, while keys() then lists the others. Keys that can be compared but are in no order (frozensets, NaN) are listed as they were given, so that equal configurations with two frozensets as keys have different ids. A key and its text give the same id although the configurations differ, and 1 and True give different ids although the configurations are equal.", "quantifier": "all configurations with keys of any type, all stable comparison sorts, all insertion orders", "why_tests_cant": "ranges over all key types, all insertion orders and all sorting algorithms", "anchors": ["whatami/what.py:What.id", "whatami/what.py:What.keys"]}
{"id": "C99", "title": "Sorting whats whose values cannot all be compared", "statement": "Whatever stable sort `sorted` is, and in whichever order the whats are given: sort_whats(whats, *keys) raises TypeError exactly if two of the whats have values that cannot be compared where their values first differ (say a number and None, or a number and a string); otherwise it is as C37 says. Values of later keys that cannot be compared do not matter unless all earlier ones are equal. sort_whatids does the same for ids.", "quantifier": "all lists of whats, all keys, all stable comparison sorts; values of any kinds such that those of one kind are ordered and those of two kinds cannot be compared (strings, integers and booleans, None are proved to be so)", "why_tests_cant": "ranges over all lists, all orders in which they are given and all sorting algorithms", "anchors": ["whatami/whatutils.py:sort_whats", "whatami/whatutils.py:sort_whatids"]}
