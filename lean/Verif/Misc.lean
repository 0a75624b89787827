import Verif.Val

/-
Model of misc.py: introspection helpers.
-/
namespace Whatami

/-- The attribute sources of an object: class attributes, `__dict__`, slots, properties.  misc.py:354-458. -/
structure Srcs where
  cd : Conf := []
  dd : Conf := []
  sd : Conf := []
  pd : Conf := []

/-- `{'k': v}` items as a Python dict value with string keys.
what.py:118, plugins.py:64-79: how a configuration shows as a value. -/
def strDict (c : Conf) : Val := .dict (c.map fun kv => (.str kv.1, kv.2))

/-- What `_classdict`, `_dict`, `_slotsdict` and `_propsdict` (misc.py:354-458) find on a value.
Dunder descriptors of the built-in types are not listed (the default prefix always removes them);
the contents of `property` objects, classes, functions and arrays are not modelled (no attributes). -/
def attrsOf : Val → Srcs
  | .obj _ _ cd dd sd pd _ _ => { cd := cd, dd := dd, sd := sd, pd := pd }
  | .sub _ _ attrs _ => { dd := attrs }
  | .odict _ attrs _ => { dd := attrs }
  | .ddict _ attrs _ => { dd := attrs }
  -- the data descriptors of int / bool / float
  | .int i => { pd := [(c!"denominator", .int 1), (c!"imag", .int 0), (c!"numerator", .int i), (c!"real", .int i)] }
  | .bool b =>
    let i : Int := if b then 1 else 0
    { pd := [(c!"denominator", .int 1), (c!"imag", .int 0), (c!"numerator", .int i), (c!"real", .int i)] }
  | .float t => { pd := [(c!"imag", .float c!"0.0"), (c!"real", .float t)] }
  -- the slots of What (what.py:109)
  | .what n c nk o =>
    { sd := [(c!"conf", strDict c), (c!"name", .str n), (c!"non_id_keys", .set (nk.map .str)),
             (c!"out_name", match o with | some s => .str s | none => .none)] }
  -- the C members of functools.partial
  | .part _ f args kws => { sd := [(c!"args", .tuple args), (c!"func", f), (c!"keywords", strDict kws)] }
  | _ => {}

/-- misc.py:488-563 `config_dict_for_object` on the four sources: later `update`s win. -/
def configDictOfSrcs (o : WhatOpts) (s : Srcs) : Conf :=
  let cd : Conf := []
  let cd := if o.addClass then dupdate cd s.cd else cd
  let cd := if o.addDict then dupdate cd s.dd else cd
  let cd := if o.addSlots then dupdate cd s.sd else cd
  if o.addProps then dupdate cd s.pd else cd

/-- misc.py:488-563 `config_dict_for_object`. -/
def configDictForObject (o : WhatOpts) (v : Val) : Conf := configDictOfSrcs o (attrsOf v)

/-- The condition of the comprehension in `trim_dict` (misc.py:483-485); an empty or `None` prefix or
postfix is falsy. -/
def trimKeep (o : WhatOpts) (k : Str) : Bool :=
  (!o.prefx.isEmpty && !startsWith k o.prefx) && (!o.postfx.isEmpty && !endsWith k o.postfx) &&
    !o.excludes.contains k

/-- misc.py:461-485 `trim_dict`. -/
def trimDict (o : WhatOpts) (cd : Conf) : Conf := cd.filter fun kv => trimKeep o kv.1

/-- misc.py:225-230 `curry2partial`: rebuild a partial-like object as a `functools.partial`.  CPython's
constructor flattens a plain partial in function position (`functools.partial(partial(g, *a, **k), *b, **l)`
has `func = g`, `args = a + b`, keywords merged, later winning). -/
def curry2partial : Val → Val
  | .part _ (.part true g a k) args kws => .part true g (a ++ args) (dupdate k kws)
  | .part _ f args kws => .part true f args kws
  | v => v

/-- `args[-n:]`.  misc.py:307. -/
def pyLast {α : Type} (n : Nat) (l : List α) : List α := if n = 0 then l else l.drop (l.length - n)

/-- misc.py:299-320: the function case of `callable2call`.  Closures are not modelled
(`closure_extractor` is the identity for the plugins). -/
def funcCall (name : Str) (args : List Str) (defaults positional : List Val) (keywords : Conf) :
    R (Str × Conf) :=
  let kw := dictOf ((pyLast defaults.length args).zip defaults ++ keywords)
  let p2k := dictOf ((args.take positional.length).zip positional)
  if kw.any fun e => !args.contains e.1 then .error .valueError
  else if p2k.any fun e => dhas kw e.1 then .error .valueError
  else if args.eraseDups.length < kw.length + positional.length then .error .valueError
  else .ok (name.filter (fun c => !(c == '<') && !(c == '>')), dictOf (kw ++ p2k))

/-- `cls.__name__`: the last component of the dotted name.  what.py:310-360, misc.py:293-331. -/
def clsName (fqn : Str) : Str := (rpartition fqn '.').2

/-- misc.py:233-331 `callable2call`.  A callable instance has no `__name__`, so line 329 raises
AttributeError for it; everything that is not callable raises ValueError (line 330). -/
def callable2call : Val → List Val → Conf → R (Str × Conf)
  | .func n args defaults, pos, kw => funcCall n args defaults pos kw
  -- `curry2partial` flattens one level (line 294), then lines 321-326
  | .part _ (.part true g a k) args kws, pos, kw =>
    callable2call g (pos ++ (a ++ args)) (dictOf (dupdate k kws ++ kw))
  | .part _ f args kws, pos, kw => callable2call f (pos ++ args) (dictOf (kws ++ kw))
  | .builtin n, _, kw => .ok (n, kw)
  | .cls f, _, kw => .ok (clsName f, kw)
  | .wcls f, _, kw => .ok (clsName f, kw)
  | .numtype n, _, kw => .ok (n, kw)
  | .obj _ true _ _ _ _ _ _, _, _ => .error .attributeError
  | _, _, _ => .error .valueError
termination_by structural v => v

/-- `obj.__class__.__name__` of a value.  what.py:310-360. -/
def className : Val → Str
  | .none => c!"NoneType"
  | .bool _ => c!"bool"
  | .int _ => c!"int"
  | .float _ => c!"float"
  | .str _ => c!"str"
  | .tuple _ => c!"tuple"
  | .list _ => c!"list"
  | .set _ => c!"set"
  | .fset _ => c!"frozenset"
  | .sub _ c _ _ => c
  | .dict _ => c!"dict"
  | .odict c _ _ => c
  | .ddict c _ _ => c
  | .what _ _ _ _ => c!"What"
  | .obj c _ _ _ _ _ _ _ => c
  | .duck n _ _ _ => n
  | .numtype _ | .cls _ | .wcls _ => c!"type"
  | .func _ _ _ => c!"function"
  | .part true _ _ _ => c!"partial"
  | .part false _ _ _ => c!"curry"
  | .builtin _ => c!"builtin_function_or_method"
  | .property => c!"property"
  | .array c _ => c
  | .rng c _ => c

end Whatami
