import Verif.Plugins

/-
Model of the places where id generation runs the `repr()`, the `str()` and the properties of user objects, which may raise.

`callable2call` ends in `raise ValueError('... %r is none of them' % c)` (misc.py:330): to say that `c` is not callable it computes `repr(c)`.
`whatareyou` (what.py:338-346) calls it on everything and takes its ValueError or TypeError to mean "describe the attributes instead".  So `what()`
runs `repr()` of the object it describes.  `str()` is run by the capture-all plugins (plugins.py:172-194).
-/
namespace Whatami

/-- What `repr()` and `str()` do to values: return a text or raise; and what reading the slots and properties that `config_dict_for_object` is asked
for raises, if anything (a property is code, and a slot that was never assigned raises AttributeError; Classes.lean has the details).
misc.py:330,383-426,488-563, plugins.py:182,194. -/
structure Printing where
  repr : Val → R Str
  str : Val → R Str
  attrs : WhatOpts → Val → Option Err

/-- The value whose `repr()` is computed by `'... %r ...' % c`; TypeError if `c` is a tuple not of length 1.  misc.py:330. -/
def percent (repr : Val → R Str) : Val → R Str
  | .tuple [x] => repr x
  | .tuple _ => .error .typeError
  | .sub .tuple _ _ [x] => repr x
  | .sub .tuple _ _ _ => .error .typeError
  | v => repr v

/-- misc.py:330: raise ValueError, unless making its message raises. -/
def refuse (repr : Val → R Str) (v : Val) : R (Str × Conf) :=
  match percent repr v with
  | .error e => .error e
  | .ok _ => .error .valueError

/-- misc.py:233-331 `callable2call` (as `callable2call`, with line 330). -/
def callable2callP (repr : Val → R Str) : Val → List Val → Conf → R (Str × Conf)
  | .func n args defaults, pos, kw => funcCall n args defaults pos kw
  | .part _ (.part true g a k) args kws, pos, kw =>
    callable2callP repr g (pos ++ (a ++ args)) (dictOf (dupdate k kws ++ kw))
  | .part _ f args kws, pos, kw => callable2callP repr f (pos ++ args) (dictOf (kws ++ kw))
  | .builtin n, _, kw => .ok (n, kw)
  | .cls f, _, kw => .ok (clsName f, kw)
  | .wcls f, _, kw => .ok (clsName f, kw)
  | .numtype n, _, kw => .ok (n, kw)
  | .obj _ true _ _ _ _ _ _, _, _ => .error .attributeError
  | v, _, _ => refuse repr v
termination_by structural v => v

/-- misc.py:488-563 `config_dict_for_object`. -/
def readAttrs (P : Printing) (o : WhatOpts) (v : Val) : R Conf :=
  match P.attrs o v with
  | some e => .error e
  | none => .ok (configDictForObject o v)

/-- what.py:310-360 `whatareyou` (as `whatareyou`). -/
def whatareyouP (P : Printing) (o : WhatOpts) (v : Val) (nameOverride : Option Str := none) : R What :=
  let mk (name : Str) (cd : Conf) : What :=
    { name := match nameOverride with | some n => n | none => name
      conf := trimDict o cd, nonids := o.nonids, out := none }
  match callable2callP P.repr v [] [] with
  | .ok (name, cd) => .ok (mk name cd)
  | .error .valueError => (readAttrs P o v).map fun cd => mk (className v) (addSeq v cd)
  | .error .typeError => (readAttrs P o v).map fun cd => mk (className v) (addSeq v cd)
  | .error e => .error e

/-- `v.what()`.  plugins.py:33-41, what.py:541-550. -/
def whatMethodP (P : Printing) : Val → Option (R What)
  | .duck n c nk o => some (.ok { name := n, conf := c, nonids := nk, out := o })
  | .obj cls callable cd dd sd pd (some o) s => some (whatareyouP P o (.obj cls callable cd dd sd pd (some o) s))
  | .wcls _ => some (.error .typeError)
  | _ => none

/-- what.py:363-395 `is_whatable`. -/
def isWhatableP (P : Printing) (v : Val) : Bool :=
  match v with
  | .wcls _ => true
  | _ =>
    match whatMethodP P v with
    | some (.ok _) => true
    | _ => false

/-- plugins.py:33-41 `whatable_plugin`. -/
def whatablePluginP (P : Printing) (bs : BS) (v : Val) : R (Option Str) :=
  if isWhatableP P v then
    match whatMethodP P v with
    | some (.ok w) => whatPlugin bs w.toVal
    | some (.error e) => .error e
    | none => .ok none
  else .ok none

/-- plugins.py:64-79 `dict_plugin`. -/
def dictPluginP (P : Printing) (bs : BS) (v : Val) : R (Option Str) :=
  match v with
  | .odict _ _ kvs =>
    match whatareyouP P {} v with
    | .error e => .error e
    | .ok w => ret (idStr bs { w with conf := dset w.conf c!"seq" (itemsList kvs) } false)
  | .dict kvs => ret (dictStr bs kvs)
  | .ddict _ _ kvs =>
    match dictStr bs kvs with
    | .error e => .error e
    | .ok _ =>
      match whatareyouP P {} v with
      | .error e => .error e
      | .ok w => ret (idStr bs w false)
  | _ => .ok none

/-- plugins.py:143-152 `partial_plugin`. -/
def partialPluginP (P : Printing) (bs : BS) : Val → R (Option Str)
  | .part p f args kws =>
    match callable2callP P.repr (curry2partial (.part p f args kws)) [] [] with
    | .error e => .error e
    | .ok (n, kw) => ret (idStr bs { name := n, conf := kw } false)
  | _ => .ok none

/-- plugins.py:225-229 `rng_plugin`. -/
def rngPluginP (P : Printing) (bs : BS) : Val → R (Option Str)
  | .rng c state =>
    match whatareyouP P {} state with
    | .error e => .error e
    | .ok w =>
      match idStr bs w false with
      | .error e => .error e
      | .ok s => .ok (some (c ++ c!"(state=" ++ s ++ c!")"))
  | _ => .ok none

/-- plugins.py:172-189 `anyobject0x_plugin`. -/
def any0xPluginP (str : Val → R Str) (bs : BS) (v : Val) : R (Option Str) :=
  match str v with
  | .error e => .error e
  | .ok s => if isInfix c!" at 0x" s then ret (idStr bs { name := className v, conf := [] } false) else .ok none

/-- plugins.py:192-194 `anyobject_plugin`. -/
def anyPluginP (str : Val → R Str) (v : Val) : R (Option Str) := ret (str v)

/-- `plugin(v)`.  plugins.py:391. -/
def Plugin.runP (P : Printing) (cu : Customs) (bs : BS) (p : Plugin) (v : Val) : R (Option Str) :=
  match p with
  | .whatable => whatablePluginP P bs v
  | .dict => dictPluginP P bs v
  | .part => partialPluginP P bs v
  | .rng => rngPluginP P bs v
  | .any0x => any0xPluginP P.str bs v
  | .any => anyPluginP P.str v
  | p => p.run cu bs v

/-- plugins.py:381-393 `build_string` with at most `n` levels of recursion. -/
def buildPN (P : Printing) (cu : Customs) (ps : List Plugin) : Nat → BS
  | 0, _ => .error .recursionError
  | n + 1, v => firstSome (fun p => p.runP P cu (buildPN P cu ps n) v) ps

/-- plugins.py:381-393 `build_string`. -/
def buildP (P : Printing) (cu : Customs) (ps : List Plugin) : BS := fun v => buildPN P cu ps (depth v) v

/-- `repr()` where the objects `S` have `def __repr__(self): return self.what().id()`, with at most `n` of these calls inside one another; the others
have the `repr()` of `P`.  what.py:250-269,541-550, misc.py:330. -/
def selfRepr (P : Printing) (cu : Customs) (ps : List Plugin) (S : Val → Bool) : Nat → Val → R Str
  | 0, _ => .error .recursionError
  | n + 1, v =>
    if S v then
      match whatMethodP { P with repr := selfRepr P cu ps S n } v with
      | some (.ok w) => idStr (buildP { P with repr := selfRepr P cu ps S n } cu ps) w false
      | some (.error e) => .error e
      | none => .error .attributeError
    else P.repr v

end Whatami
