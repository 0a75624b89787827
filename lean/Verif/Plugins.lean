import Verif.Misc

/-
Model of plugins.py and of the id generation of what.py.

The plugins and `What.id` call back `WhatamiPluginManager.build_string`; here every one of them takes
that function as a parameter `bs`.  `build` ties the knot.
-/
namespace Whatami

/-- What `build_string` returns: a string or `None`, or an exception.  plugins.py:381-393. -/
abbrev BS := Val → R (Option Str)

/-- `'%s' % x` where `x` is a string or None.  plugins.py:73, what.py:263-268. -/
def showOpt : Option Str → Str
  | some s => s
  | none => c!"None"

/-! ### what.py -/

/-- Comparison of `sorted(self.conf.items())` (what.py:264): keys are strings and unique, so the values
are never compared. -/
def keyLe {α : Type} (a b : Str × α) : Bool := strLe a.1 b.1

/-- what.py:264-265: the items that make it to the id, in order. -/
def idItems (w : What) (nonidsToo : Bool) : Conf :=
  (sortBy keyLe w.conf).filter fun kv => nonidsToo || !w.nonids.contains kv.1

/-- what.py:263: `'%s=%s' % (k, build_string(v))`. -/
def kvStr (bs : BS) (kv : Str × Val) : R Str :=
  match bs kv.2 with
  | .error e => .error e
  | .ok s => .ok (kv.1 ++ c!"=" ++ showOpt s)

/-- what.py:266-268: name, parentheses and output name around the joined items. -/
def wrapId (name : Str) (out : Option Str) (kvs : Str) : Str :=
  let my := name ++ c!"(" ++ kvs ++ c!")"
  match out with
  | some o => o ++ c!"=" ++ my
  | none => my

/-- what.py:250-268 `What.id` before trimming. -/
def idStr (bs : BS) (w : What) (nonidsToo : Bool) : R Str :=
  match mapR (kvStr bs) (idItems w nonidsToo) with
  | .error e => .error e
  | .ok parts => .ok (wrapId w.name w.out (pyJoin c!"," parts))

/-- what.py:291-298 `_trim_too_long`; `sha1` is the hex digest of the UTF-8 bytes. -/
def trimTooLong (sha1 : Str → Str) (s : Str) (maxlength : Int) : Str :=
  if 0 < maxlength ∧ maxlength < s.length then sha1 s else s

/-- what.py:250-269 `What.id`. -/
def whatId (sha1 : Str → Str) (bs : BS) (w : What) (nonidsToo : Bool) (maxlength : Int) : R Str :=
  match idStr bs w nonidsToo with
  | .error e => .error e
  | .ok s => .ok (trimTooLong sha1 s maxlength)

/-- what.py:347-354: the `seq` entry of collections.  Sets of a proper subclass and frozensets get none. -/
def addSeq (v : Val) (cd : Conf) : Conf :=
  match v with
  | .list xs => dset cd c!"seq" (.list xs)
  | .tuple xs => dset cd c!"seq" (.tuple xs)
  | .set xs => dset cd c!"seq" (.set xs)
  | .dict kvs => dset cd c!"seq" (.dict kvs)
  | .odict _ _ kvs => dset cd c!"seq" (.dict kvs)
  | .ddict _ _ kvs => dset cd c!"seq" (.dict kvs)
  | .sub .tuple _ _ xs => dset cd c!"seq" (.tuple xs)
  | .sub .list _ _ xs => dset cd c!"seq" (.list xs)
  | _ => cd

/-- what.py:310-360 `whatareyou`: ValueError and TypeError of `callable2call` select the introspection
branch, any other exception propagates. -/
def whatareyou (o : WhatOpts) (v : Val) (nameOverride : Option Str := none) : R What :=
  let mk (name : Str) (cd : Conf) : What :=
    { name := match nameOverride with | some n => n | none => name
      conf := trimDict o cd, nonids := o.nonids, out := none }
  match callable2call v [] [] with
  | .ok (name, cd) => .ok (mk name cd)
  | .error .valueError => .ok (mk (className v) (addSeq v (configDictForObject o v)))
  | .error .typeError => .ok (mk (className v) (addSeq v (configDictForObject o v)))
  | .error e => .error e

/-- The result of calling `v.what()` on a value that has the method; `none` if it has no such method.
plugins.py:33-41, what.py:363-395. -/
def whatMethod : Val → Option (R What)
  | .duck n c nk o => some (.ok { name := n, conf := c, nonids := nk, out := o })
  -- what.py:541-550
  | .obj cls callable cd dd sd pd (some o) s => some (whatareyou o (.obj cls callable cd dd sd pd (some o) s))
  -- an unbound method called without `self`
  | .wcls _ => some (.error .typeError)
  | _ => none

/-- what.py:363-395 `is_whatable`: any exception of `what()` makes it False, except that a decorated
class is always considered whatable (the `whatami` mark, lines 387-390). -/
def isWhatable (v : Val) : Bool :=
  match v with
  | .wcls _ => true
  | _ =>
    match whatMethod v with
    | some (.ok _) => true
    | _ => false

/-! ### plugins.py: the plugins -/

/-- A successful plugin result.  plugins.py:391-393. -/
def ret (r : R Str) : R (Option Str) :=
  match r with
  | .ok s => .ok (some s)
  | .error e => .error e

/-- `','.join(...)` of `build_string` results: a None raises TypeError.  plugins.py:87,97,106. -/
def unNone : List (Option Str) → R (List Str)
  | [] => .ok []
  | none :: _ => .error .typeError
  | some s :: r =>
    match unNone r with
    | .ok l => .ok (s :: l)
    | .error e => .error e

/-- `list(map(build_string, xs))` where every result must be a string.  plugins.py:85,97,106. -/
def strings (bs : BS) (xs : List Val) : R (List Str) :=
  match mapR bs xs with
  | .error e => .error e
  | .ok l => unNone l

/-- plugins.py:24-30 `what_plugin`. -/
def whatPlugin (bs : BS) : Val → R (Option Str)
  | .what n c nk o => ret (idStr bs { name := n, conf := c, nonids := nk, out := o } false)
  | _ => .ok none

/-- plugins.py:33-41 `whatable_plugin`. -/
def whatablePlugin (bs : BS) (v : Val) : R (Option Str) :=
  if isWhatable v then
    match whatMethod v with
    | some (.ok w) => whatPlugin bs w.toVal
    | some (.error e) => .error e
    | none => .ok none
  else .ok none

/-- plugins.py:44-48 `builtin_plugin`. -/
def builtinPlugin : Val → R (Option Str)
  | .builtin _ => .error .exception
  | _ => .ok none

/-- plugins.py:51-55 `numeric_type_plugin`. -/
def numericTypePlugin : Val → R (Option Str)
  | .numtype n => .ok (some (n ++ c!"()"))
  | _ => .ok none

/-- plugins.py:58-61 `property_plugin`. -/
def propertyPlugin : Val → R (Option Str)
  | .property => .error .exception
  | _ => .ok none

/-- plugins.py:132: the body between the quotes: `v.replace("\\'", "'").replace("'", "\\'")`. -/
def strBody (s : Str) : Str := pyReplace (pyReplace s ['\\', '\''] ['\'']) ['\''] ['\\', '\'']

/-- plugins.py:125-132 `string_plugin`. -/
def stringPlugin : Val → R (Option Str)
  | .str s => .ok (some (['\''] ++ strBody s ++ ['\'']))
  | _ => .ok none

/-- Joined elements between brackets.  plugins.py:87-88,97,106. -/
def bracket (l r : Str) (parts : List Str) : Str := l ++ pyJoin c!"," parts ++ r

/-- `'%s(seq=%s)' % (cls, id_string)`.  plugins.py:91,100,109. -/
def seqId (cls : Str) (s : Str) : Str := cls ++ c!"(seq=" ++ s ++ c!")"

/-- plugins.py:103-109 `tuple_plugin`. -/
def tuplePlugin (bs : BS) : Val → R (Option Str)
  | .tuple xs => ret ((strings bs xs).map (bracket c!"(" c!")"))
  | .sub .tuple c _ xs => ret ((strings bs xs).map fun l => seqId c (bracket c!"(" c!")" l))
  | _ => .ok none

/-- plugins.py:94-100 `list_plugin`. -/
def listPlugin (bs : BS) : Val → R (Option Str)
  | .list xs => ret ((strings bs xs).map (bracket c!"[" c!"]"))
  | .sub .list c _ xs => ret ((strings bs xs).map fun l => seqId c (bracket c!"[" c!"]" l))
  | _ => .ok none

/-- plugins.py:73-75: `'%s:%s' % (build_string(k), build_string(v))`. -/
def dkvStr (bs : BS) (kv : Val × Val) : R Str :=
  match bs kv.1 with
  | .error e => .error e
  | .ok k =>
    match bs kv.2 with
    | .error e => .error e
    | .ok v => .ok (showOpt k ++ c!":" ++ showOpt v)

/-- plugins.py:73-76: the sorted joined items between braces. -/
def dictStr (bs : BS) (kvs : List (Val × Val)) : R Str :=
  (mapR (dkvStr bs) kvs).map fun l => bracket c!"{" c!"}" (sortBy strLe l)

/-- `list(v.items())`.  plugins.py:71,75. -/
def itemsList (kvs : List (Val × Val)) : Val := .list (kvs.map fun kv => .tuple [kv.1, kv.2])

/-- plugins.py:64-79 `dict_plugin`. -/
def dictPlugin (bs : BS) (v : Val) : R (Option Str) :=
  match v with
  | .odict _ _ kvs =>
    match whatareyou {} v with
    | .error e => .error e
    | .ok w => ret (idStr bs { w with conf := dset w.conf c!"seq" (itemsList kvs) } false)
  | .dict kvs => ret (dictStr bs kvs)
  | .ddict _ _ kvs =>
    match dictStr bs kvs with
    | .error e => .error e
    | .ok _ =>
      match whatareyou {} v with
      | .error e => .error e
      | .ok w => ret (idStr bs w false)
  | _ => .ok none

/-- plugins.py:88: braces, or `set()` when there are no elements. -/
def setStr (l : List Str) : Str := if l.isEmpty then c!"set()" else bracket c!"{" c!"}" l

/-- plugins.py:87. -/
def fsetStr (l : List Str) : Str := if l.isEmpty then c!"frozenset()" else bracket c!"frozenset({" c!"})" l

/-- plugins.py:82-91 `set_plugin`. -/
def setPlugin (bs : BS) : Val → R (Option Str)
  | .set xs => ret ((strings bs xs).map fun l => setStr (sortBy strLe l))
  | .fset xs => ret ((strings bs xs).map fun l => fsetStr (sortBy strLe l))
  | .sub .set c _ xs => ret ((strings bs xs).map fun l => seqId c (setStr (sortBy strLe l)))
  | .sub .fset c _ xs => ret ((strings bs xs).map fun l => seqId c (setStr (sortBy strLe l)))
  | _ => .ok none

/-- plugins.py:143-152 `partial_plugin`. -/
def partialPlugin (bs : BS) : Val → R (Option Str)
  | .part p f args kws =>
    match callable2call (curry2partial (.part p f args kws)) [] [] with
    | .error e => .error e
    | .ok (n, kw) => ret (idStr bs { name := n, conf := kw } false)
  | _ => .ok none

/-- plugins.py:155-167 `function_plugin`. -/
def functionPlugin (bs : BS) : Val → R (Option Str)
  | .func n args defaults =>
    let name := if n = c!"<lambda>" then c!"lambda" else n
    ret (idStr bs { name := name, conf := dictOf ((pyLast defaults.length args).zip defaults) } false)
  | _ => .ok none

/-- plugins.py:218-222 and 232-236 `numpy_plugin`, `pandas_plugin`: the same text for the same class
and hash. -/
def arrayPlugin : Val → R (Option Str)
  | .array c h => .ok (some (c ++ c!"(hash='" ++ h ++ c!"')"))
  | _ => .ok none

/-- plugins.py:225-229 `rng_plugin`. -/
def rngPlugin (bs : BS) : Val → R (Option Str)
  | .rng c state =>
    match whatareyou {} state with
    | .error e => .error e
    | .ok w =>
      match idStr bs w false with
      | .error e => .error e
      | .ok s => .ok (some (c ++ c!"(state=" ++ s ++ c!")"))
  | _ => .ok none

/-- `str(v)` for the values the capture-all plugins get to see under the default chain; for the values
other plugins of the default chain deal with (reachable only in custom chains) the text is not modelled
and given by the class name.  plugins.py:192-194. -/
def pyStr : Val → Str
  | .none => c!"None"
  | .bool true => c!"True"
  | .bool false => c!"False"
  | .int i => intStr i
  | .float t => t
  | .str s => s
  | .cls f => c!"<class '" ++ f ++ c!"'>"
  | .wcls f => c!"<class '" ++ f ++ c!"'>"
  | .numtype n => c!"<class '" ++ n ++ c!"'>"
  | .obj _ _ _ _ _ _ _ s => s
  | v => className v

/-- `p in s` for strings.  plugins.py:172-189. -/
def isInfix (p : Str) : Str → Bool
  | [] => p.isEmpty
  | c :: r => p.isPrefixOf (c :: r) || isInfix p r

/-- plugins.py:172-189 `anyobject0x_plugin` (`deep` is False in the chain). -/
def any0xPlugin (bs : BS) (v : Val) : R (Option Str) :=
  if isInfix c!" at 0x" (pyStr v) then ret (idStr bs { name := className v, conf := [] } false)
  else .ok none

/-- plugins.py:192-194 `anyobject_plugin`. -/
def anyPlugin (v : Val) : R (Option Str) := .ok (some (pyStr v))

/-! ### plugins.py: the chain -/

/-- A plugin: the seventeen defaults (plugins.py:297-320) or a user function, by identity. -/
inductive Plugin where
  | what | whatable | builtin | numericType | property | string | tuple | list | dict | set
  | part | function | pandas | numpy | rng | any0x | any
  | custom (n : Nat)
deriving DecidableEq, Repr

/-- User plugins: functions from values to strings or None that do not call back `build_string`.
plugins.py:350-379 `insert`. -/
abbrev Customs := Nat → Val → R (Option Str)

/-- `plugin(v)`.  plugins.py:391. -/
def Plugin.run (cu : Customs) (bs : BS) : Plugin → Val → R (Option Str)
  | .what, v => whatPlugin bs v
  | .whatable, v => whatablePlugin bs v
  | .builtin, v => builtinPlugin v
  | .numericType, v => numericTypePlugin v
  | .property, v => propertyPlugin v
  | .string, v => stringPlugin v
  | .tuple, v => tuplePlugin bs v
  | .list, v => listPlugin bs v
  | .dict, v => dictPlugin bs v
  | .set, v => setPlugin bs v
  | .part, v => partialPlugin bs v
  | .function, v => functionPlugin bs v
  | .pandas, v => arrayPlugin v
  | .numpy, v => arrayPlugin v
  | .rng, v => rngPlugin bs v
  | .any0x, v => any0xPlugin bs v
  | .any, v => anyPlugin v
  | .custom n, v => cu n v

/-- plugins.py:390-393: the loop of `build_string`. -/
def firstSome (f : Plugin → R (Option Str)) : List Plugin → R (Option Str)
  | [] => .ok none
  | p :: ps =>
    match f p with
    | .error e => .error e
    | .ok (some s) => .ok (some s)
    | .ok none => firstSome f ps

/-- plugins.py:297-320 `DEFAULT_PLUGINS`. -/
def defaultPlugins : List Plugin :=
  [.what, .whatable, .builtin, .numericType, .property, .string, .tuple, .list, .dict, .set,
   .part, .function, .pandas, .numpy, .rng, .any0x, .any]

/-- plugins.py:381-393 `build_string` with at most `n` levels of recursion. -/
def buildN (cu : Customs) (ps : List Plugin) : Nat → BS
  | 0, _ => .error .exception
  | n + 1, v => firstSome (fun p => p.run cu (buildN cu ps n) v) ps

/-- plugins.py:381-393 `WhatamiPluginManager.build_string`.  That the recursion bound is never reached is
theorem `build_eq`. -/
def build (cu : Customs) (ps : List Plugin) : BS := fun v => buildN cu ps (depth v) v

/-- No user plugin.  plugins.py:297-320. -/
def noCustom : Customs := fun _ _ => .ok none

/-- `build_string` under the default chain.  plugins.py:381-393. -/
def buildD : BS := build noCustom defaultPlugins

/-- `What.id()` under the default chain, all options at their defaults.  what.py:250-269. -/
def idD (w : What) : R Str := idStr buildD w false

end Whatami
