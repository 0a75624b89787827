import Verif.Frame
import Verif.Utils

/-
Model of misc.py: `fqn` (misc.py:28-46) and `mlexp_info_helper` (misc.py:839-877).
-/
namespace Whatami

/-- The value of an attribute like `__module__`: a string, None (as some builtins have it), or no such attribute.  misc.py:43-46. -/
inductive NameAttr where
  | str (s : Str)
  | none
  | absent
deriving DecidableEq, Repr

/-- What `fqn` asks of an object: the three attributes of the object itself, as `getattr` finds them.  misc.py:43-46. -/
structure NameAttrs where
  module : NameAttr
  qualname : NameAttr
  name : NameAttr
deriving DecidableEq, Repr

/-- `a + '.' + b`, with both operands from attributes; `a + '.'` is evaluated before `b` is read, so that None there is a TypeError even if `b` is
absent.  misc.py:44, 46. -/
def dotted (a b : NameAttr) : R Str :=
  match a with
  | .absent => .error .attributeError
  | .none => .error .typeError
  | .str m =>
    match b with
    | .absent => .error .attributeError
    | .none => .error .typeError
    | .str n => .ok (m ++ c!"." ++ n)

/-- misc.py:28-46 `fqn`: `obj` are the attributes of the object, `cls` those of its class. -/
def fqn (obj cls : NameAttrs) (useClass : Bool) : R Str :=
  let o := if useClass then cls else obj
  orElseAttr (dotted o.module o.qualname) (dotted o.module o.name)

/-- The arguments of `mlexp_info_helper` (misc.py:839-845); `source` is what `inspect.getsourcelines(exp_function)` gives, if there is such a
function (misc.py:871), `idate` what calling `itime` gives (misc.py:873). -/
structure InfoArgs where
  title : Val
  dataSetup : Val := .none
  modelSetup : Val := .none
  evalSetup : Val := .none
  source : Option (R Val) := none
  comments : Val := .none
  itime : Option (R Val) := none

/-- misc.py:871, 873: None, or the result of a call. -/
def optCall : Option (R Val) → R Val
  | none => .ok .none
  | some r => r

/-- misc.py:839-877 `mlexp_info_helper`, evaluated in the order of the code.  `now` and `host` are what the clock and the host name give. -/
def mlexpInfo (bs : BS) (idm : Val → Option (R Str)) (now host : Str) (a : InfoArgs) : R (List (Str × Val)) :=
  (what2id bs idm a.dataSetup).bind fun d =>
  (what2id bs idm a.modelSetup).bind fun m =>
  (what2id bs idm a.evalSetup).bind fun e =>
  (optCall a.source).bind fun src =>
  (optCall a.itime).bind fun idate =>
  .ok [(c!"title", a.title), (c!"data_setup", optStr d), (c!"model_setup", optStr m), (c!"eval_setup", optStr e), (c!"fsource", src),
    (c!"date", .str now), (c!"idate", idate), (c!"host", .str host), (c!"comments", a.comments)]

end Whatami
